import Verif.RelReadLemmas

/-
Pieces of texts and lists in them, as far as reading is concerned.
-/

namespace Verif.Rd

open Spec

variable {u : Unicode} {I : Meaning} {tight : Bool}

/-! ### Borders -/

/-- Words of operators. -/
def opWords : List Str := [c!"or", c!"xor", c!"and", c!"is", c!"in", c!"starts", c!"ends", c!"contains"]

/-- Before a word that is no operator every expression ends. -/
theorem Stops.word' {w : Str} (hw : lower w ∉ opWords) (j : Nat) (r : List Token) : Stops tight j (.word w :: r) := by
  have hne : ∀ s : Str, s ∈ opWords → (Token.word w).is s = false := by
    intro s hs
    simp only [Token.is, decide_eq_false_iff_not]
    rintro h
    exact hw (h ▸ hs)
  have h1 := hne c!"or" (by decide)
  have h2 := hne c!"xor" (by decide)
  have h3 := hne c!"and" (by decide)
  have h4 := hne c!"is" (by decide)
  have h5 := hne c!"in" (by decide)
  have h6 := hne c!"starts" (by decide)
  have h7 := hne c!"ends" (by decide)
  have h8 := hne c!"contains" (by decide)
  refine ⟨fun i hi hi' => ?_, fun _ => by simp [NoPostfix], by simp, by simp⟩
  interval_cases i <;> cases tight <;> rcases r with _ | ⟨t, _ | ⟨t', r⟩⟩ <;>
      simp [opAt, nullAt, nullOp, compareOp, textOp, h1, h2, h3, h4, h5, h6, h7, h8]

/-- What may follow a clause or a part of it: the end, a closing brace, or one of these words. -/
def Border (ws : List Str) (r : List Token) : Prop := r = [] ∨ (∃ r', r = .sym '}' :: r') ∨ ∃ w r', r = .word w :: r' ∧ lower w ∈ ws

/-- The words that begin clauses, or follow them. -/
def starters : List Str := [c!"match", c!"optional", c!"with", c!"return", c!"unwind", c!"create", c!"merge", c!"delete", c!"detach", c!"set", c!"remove",
  c!"call", c!"union"]

theorem Border.mono {ws ws' : List Str} {r : List Token} (h : Border ws r) (hs : ws ⊆ ws') : Border ws' r := by
  rcases h with h | h | ⟨w, r', h1, h2⟩
  · exact .inl h
  · exact .inr (.inl h)
  · exact .inr (.inr ⟨w, r', h1, hs h2⟩)

theorem Border.word {ws : List Str} {w : Str} (h : lower w ∈ ws) (r : List Token) : Border ws (.word w :: r) := .inr (.inr ⟨w, r, rfl, h⟩)

theorem Border.stops {ws : List Str} {r : List Token} (h : Border ws r) (hs : ∀ w ∈ ws, w ∉ opWords) : Stops tight 0 r := by
  rcases h with rfl | ⟨r', rfl⟩ | ⟨w, r', rfl, h⟩
  · exact Stops.nil 0
  · exact Stops.close (by simp) 0 r'
  · exact Stops.word' (hs _ h) 0 r'

theorem Border.noArrow {ws : List Str} {r : List Token} (h : Border ws r) : NoArrow r := by
  rcases h with rfl | ⟨r', rfl⟩ | ⟨w, r', rfl, h⟩ <;> simp [NoArrow]

theorem Border.sym {ws : List Str} {r : List Token} (h : Border ws r) {c : Char} (hc : c ≠ '}') : r.head? ≠ some (.sym c) := by
  rcases h with rfl | ⟨r', rfl⟩ | ⟨w, r', rfl, h⟩ <;> simp [hc.symm]

theorem Border.after {ws : List Str} {r : List Token} (h : Border ws r) {k : Str} (hk : k ∉ ws) : Spec.after k r = none := by
  rcases h with rfl | ⟨r', rfl⟩ | ⟨w, r', rfl, h⟩
  · rfl
  · simp [Spec.after, Token.is]
  · simp only [Spec.after, Token.is, decide_eq_true_eq]
    rw [if_neg]
    rintro rfl
    exact hk h

theorem after_word {w : Str} {k : Str} (h : lower w = k) (r : List Token) : Spec.after k (.word w :: r) = some r := by simp [Spec.after, Token.is, h]

/-! ### Pieces of text -/

/-- Parts with the tokens `ts`. -/
def Seg (u : Unicode) (e : Env) (ps : List Part) (e' : Env) (ts : List Token) : Prop := ∃ s, layout e ps = (s, e') ∧ Lexes u s ts

/-- Parts that can follow a name or a number. -/
def SegS (u : Unicode) (e : Env) (ps : List Part) (e' : Env) (ts : List Token) : Prop :=
  ∃ s, layout e ps = (s, e') ∧ Lexes u s ts ∧ ∀ r, Follow u r → Follow u (s ++ r)

/-- Parts that can be followed by anything. -/
def SegA (u : Unicode) (e : Env) (ps : List Part) (e' : Env) (ts : List Token) : Prop := ∃ s, layout e ps = (s, e') ∧ LexesAny u s ts

theorem Lexes.append {s s' : Str} {ts ts' : List Token} (h : Lexes u s ts) (h' : Lexes u s' ts') (hf : ∀ r, Follow u r → Follow u (s' ++ r)) :
    Lexes u (s ++ s') (ts ++ ts') := by
  intro r rs hr ht
  rw [List.append_assoc, List.append_assoc]
  exact h _ _ (hf r hr) (h' _ _ hr ht)

theorem Lexes.nil : Lexes u [] [] := fun _ _ _ h => h

theorem Seg.append {e e1 e2 : Env} {ps qs : List Part} {ts us : List Token} (h : Seg u e ps e1 ts) (h' : SegS u e1 qs e2 us) :
    Seg u e (ps ++ qs) e2 (ts ++ us) := by
  obtain ⟨s, h1, h2⟩ := h
  obtain ⟨s', h3, h4, h5⟩ := h'
  exact ⟨s ++ s', by rw [layout_append, h1, h3], h2.append h4 h5⟩

theorem SegS.append {e e1 e2 : Env} {ps qs : List Part} {ts us : List Token} (h : SegS u e ps e1 ts) (h' : SegS u e1 qs e2 us) :
    SegS u e (ps ++ qs) e2 (ts ++ us) := by
  obtain ⟨s, h1, h2, h6⟩ := h
  obtain ⟨s', h3, h4, h5⟩ := h'
  exact ⟨s ++ s', by rw [layout_append, h1, h3], h2.append h4 h5, fun r hr => by rw [List.append_assoc]; exact h6 _ (h5 r hr)⟩

theorem SegS.nil (e : Env) : SegS u e [] e [] := ⟨[], rfl, Lexes.nil, fun _ h => h⟩

theorem SegS.seg {e e' : Env} {ps : List Part} {ts : List Token} (h : SegS u e ps e' ts) : Seg u e ps e' ts := by
  obtain ⟨s, h1, h2, _⟩ := h
  exact ⟨s, h1, h2⟩

theorem SegA.seg {e e' : Env} {ps : List Part} {ts : List Token} (h : SegA u e ps e' ts) : Seg u e ps e' ts := by
  obtain ⟨s, h1, h2⟩ := h
  exact ⟨s, h1, h2.lexes⟩

theorem SegA.append {e e1 e2 : Env} {ps qs : List Part} {ts us : List Token} (h : SegA u e ps e1 ts) (h' : SegA u e1 qs e2 us) :
    SegA u e (ps ++ qs) e2 (ts ++ us) := by
  obtain ⟨s, h1, h2⟩ := h
  obtain ⟨s', h3, h4⟩ := h'
  exact ⟨s ++ s', by rw [layout_append, h1, h3], h2.append h4⟩

theorem SegA.then {e e1 e2 : Env} {ps qs : List Part} {ts us : List Token} (h : SegA u e ps e1 ts) (h' : Seg u e1 qs e2 us) :
    Seg u e (ps ++ qs) e2 (ts ++ us) := by
  obtain ⟨s, h1, h2⟩ := h
  obtain ⟨s', h3, h4⟩ := h'
  exact ⟨s ++ s', by rw [layout_append, h1, h3], h2.then h4⟩

theorem SegA.nil (e : Env) : SegA u e [] e [] := ⟨[], rfl, LexesAny.nil⟩

/-- A keyword. -/
theorem SegA.kw (e : Env) {w : Str} (hw : (w != [] && w.all fun c => c.toNat < 128 && c.isAlpha) = true) : SegA u e [.lit (w ++ c!" ")] e [.word w] :=
  ⟨w ++ c!" ", by simp [layout], LexesAny.word hw⟩

theorem Seg.kw {e e' : Env} {ps : List Part} {ts : List Token} {w : Str} (hw : (w != [] && w.all fun c => c.toNat < 128 && c.isAlpha) = true)
    (h : Seg u e ps e' ts) : Seg u e (.lit (w ++ c!" ") :: ps) e' (.word w :: ts) := SegA.then (SegA.kw e hw) h

theorem SegS.kw {e e' : Env} {ps : List Part} {ts : List Token} {w : Str} (hw : (w != [] && w.all fun c => c.toNat < 128 && c.isAlpha) = true)
    (h : Seg u e ps e' ts) : SegS u e (.lit (' ' :: (w ++ c!" ")) :: ps) e' (.word w :: ts) := by
  obtain ⟨s, h1, h2⟩ := Seg.kw hw h
  simp only [layout, Prod.mk.injEq] at h1
  refine ⟨' ' :: s, ?_, h2.sp, fun r _ => Follow.mark (by decide) _⟩
  simp only [layout]
  exact Prod.ext (by rw [← h1.1]; rfl) h1.2

/-- A blank ends a clause. -/
theorem Seg.close {e e' : Env} {ps : List Part} {ts : List Token} (h : Seg u e ps e' ts) : SegA u e (ps ++ [.lit c!" "]) e' ts := by
  obtain ⟨s, h1, h2⟩ := h
  refine ⟨s ++ c!" ", by rw [layout_append, h1]; simp [layout], ?_⟩
  have := Lexes.mark h2 (c := ' ') (by decide) (LexesAny.blank (u := u))
  simpa using this

theorem Seg.hole {e e' : Env} {ts : List Tree} {s : Str} {us : List Token} (h : shownAs e ts = (s, e')) (hl : Lexes u s us) : Seg u e [.hole ts] e' us := by
  refine ⟨s, ?_, hl⟩
  unfold shownAs at h
  simp [layout, h]

/-! ### Lists -/

/-- The reader `p` reads the tokens as `x`, before everything that `S` allows. -/
def Item {α : Type} (S : List Token → Prop) (p : Nat → List Token → Option (α × List Token)) (ts : List Token) (x : α) : Prop :=
  ∀ r, S r → ∃ N, ∀ n ≥ N, p n (ts ++ r) = some (x, r)

def RList {α : Type} (p : Nat → List Token → Option (α × List Token)) (ts : List Token) (xs : List α) (r : List Token) : Prop :=
  ∃ N, ∀ n ≥ N, ∀ m ≥ N, commaList (p n) m ts = some (xs, r)

theorem RList.last {α : Type} {p : Nat → List Token → Option (α × List Token)} {ts r : List Token} {x : α} (h : ∃ N, ∀ n ≥ N, p n ts = some (x, r))
    (hr : r.head? ≠ some (.sym ',')) : RList p ts [x] r := by
  obtain ⟨N, h⟩ := h
  refine ⟨N + 1, fun n hn m hm => ?_⟩
  obtain ⟨m, rfl⟩ : ∃ k, m = k + 1 := ⟨m - 1, by omega⟩
  rw [commaList, h n (by omega)]
  simp only [Option.bind_some]
  split
  · simp at hr
  · rfl

theorem RList.more {α : Type} {p : Nat → List Token → Option (α × List Token)} {ts r r' : List Token} {x : α} {xs : List α}
    (h : ∃ N, ∀ n ≥ N, p n ts = some (x, .sym ',' :: r)) (h' : RList p r xs r') : RList p ts (x :: xs) r' := by
  obtain ⟨N, h⟩ := h
  obtain ⟨N', h'⟩ := h'
  refine ⟨N + N' + 1, fun n hn m hm => ?_⟩
  obtain ⟨m, rfl⟩ : ∃ k, m = k + 1 := ⟨m - 1, by omega⟩
  rw [commaList, h n (by omega)]
  simp only [Option.bind_some]
  rw [h' n (by omega) m (by omega)]
  rfl

/-- Lists are read item by item; `Q` is what is known of the first tokens. -/
theorem commaList_reads {α β : Type} {R : Env → α → β → Env → Prop} {f : α → List Part} {S : List Token → Prop} {Q : List Token → Prop}
    {p : Nat → List Token → Option (β × List Token)} (hS : ∀ r, S (.sym ',' :: r)) (hQ : ∀ ts r, Q ts → Q (ts ++ r))
    (hR : ∀ e a b e', R e a b e' → ∃ ts, Seg u e (f a) e' ts ∧ Item S p ts b ∧ Q ts)
    {e e' : Env} {as : List α} {bs : List β} (h : Thread R e as bs e') (hne : as ≠ []) :
    ∃ ts, Seg u e (sepParts c!", " (as.map f)) e' ts ∧ (∀ r, S r → r.head? ≠ some (.sym ',') → RList p (ts ++ r) bs r) ∧ Q ts := by
  induction h with
  | nil => exact absurd rfl hne
  | @cons e e1 e2 a b as bs h1 h2 ih =>
    obtain ⟨ts, s1, s2, s3⟩ := hR _ _ _ _ h1
    cases h2 with
    | nil => exact ⟨ts, s1, fun r hr hc => RList.last (s2 r hr) hc, s3⟩
    | @cons _ e3 _ a' b' as bs h3 h4 =>
      obtain ⟨us, i1, i2, _⟩ := ih (by simp)
      refine ⟨ts ++ (.sym ',' :: us), ?_, fun r hr hc => ?_, hQ _ _ s3⟩
      · simp only [List.map_cons, sepParts] at i1 ⊢
        refine Seg.append s1 ?_
        obtain ⟨s, t1, t2⟩ := i1
        refine ⟨',' :: ' ' :: s, by simp [layout, t1], ?_, fun r _ => Follow.mark (by decide) _⟩
        intro r rs hf hr
        exact Tokens.sym (by simp [symbols]) (by simp) (Tokens.sp (t2 r rs hf hr))
      · have := RList.more (r := us ++ r) (s2 (.sym ',' :: (us ++ r)) (hS _)) (i2 r hr hc)
        simpa using this

theorem thread_of_forall₂ {α β : Type} {R : α → β → Prop} {e : Env} {as : List α} {bs : List β} (h : List.Forall₂ R as bs) :
    Thread (fun e1 a b e2 => e1 = e ∧ e2 = e ∧ R a b) e as bs e := by
  induction h with
  | nil => exact .nil
  | cons h _ ih => exact .cons ⟨rfl, rfl, h⟩ ih

/-- Where an item of a list may end. -/
def ItemEnd (ws : List Str) (r : List Token) : Prop := Border ws r ∨ ∃ r', r = .sym ',' :: r'

theorem ItemEnd.stops {ws : List Str} {r : List Token} (h : ItemEnd ws r) (hs : ∀ w ∈ ws, w ∉ opWords) : Stops tight 0 r := by
  rcases h with h | ⟨r', rfl⟩
  · exact h.stops hs
  · exact Stops.close (by simp) 0 r'

theorem ItemEnd.noArrow {ws : List Str} {r : List Token} (h : ItemEnd ws r) : NoArrow r := by
  rcases h with h | ⟨r', rfl⟩
  · exact h.noArrow
  · simp [NoArrow]

theorem ItemEnd.after {ws : List Str} {r : List Token} (h : ItemEnd ws r) {k : Str} (hk : k ∉ ws) : Spec.after k r = none := by
  rcases h with h | ⟨r', rfl⟩
  · exact h.after hk
  · simp [Spec.after, Token.is]

/-! ### An expression after a keyword -/

def ROpt (I : Meaning) (tight : Bool) (k : Str) (ts : List Token) (d : Option I.D) (r : List Token) : Prop :=
  ∃ N, ∀ n ≥ N, readOpt I tight k n ts = some (d, r)

theorem ROpt.none {k : Str} {r : List Token} (h : Spec.after k r = none) : ROpt I tight k r none r :=
  ⟨0, fun n _ => by simp [readOpt, h]⟩

theorem ROpt.some {k w : Str} {ts r : List Token} {d : I.D} (hw : lower w = k) (h : RE I tight 0 ts d r) : ROpt I tight k (.word w :: ts) (some d) r := by
  obtain ⟨N, h⟩ := h
  exact ⟨N, fun n hn => by simp [readOpt, after_word hw, h n hn]⟩

end Verif.Rd
