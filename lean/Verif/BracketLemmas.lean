import Verif.BracketSpec
import Verif.RenderLemmas
import Verif.LexLemmas
import Verif.Builder

/-
Lemmas for C40: balanced texts, trees whose texts are balanced, and the constructors that make such trees.
-/

namespace Verif
open Spec

/-! ### Reading -/

theorem scan_append (x : Scan) (s t : Str) : scan x (s ++ t) = (scan x s).bind fun y => scan y t := by
  induction s generalizing x with
  | nil => rfl
  | cons c cs ih =>
    simp only [List.cons_append, scan]
    cases scanChar x c with
    | none => rfl
    | some y => exact ih y

theorem scanCode_frame {m' : Mode} {d d' : List Char} {c : Char} (r : List Char) (h : scanCode d c = some (m', d')) :
    scanCode (d ++ r) c = some (m', d' ++ r) := by
  simp only [scanCode] at h ⊢
  split at h
  · next h1 => simp only [h1, if_true]; cases h; rfl
  · next h1 =>
    simp only [h1, if_false]
    split at h
    · next h2 => simp only [h2, if_true]; cases h; rfl
    · next h2 =>
      simp only [h2, if_false]
      split at h
      · next h3 => simp only [h3, if_true]; cases h; rfl
      · next h3 =>
        simp only [h3, if_false]
        split at h
        · next h4 =>
          simp only [h4, if_true]
          cases d with
          | nil => cases h
          | cons a d =>
            simp only [List.cons_append] at h ⊢
            split at h
            · next h5 => simp only [h5, if_true]; cases h; rfl
            · cases h
        · next h4 =>
          simp only [h4, if_false]
          split at h
          · next h5 => simp only [h5, if_true]; cases h; rfl
          · next h5 =>
            simp only [h5, if_false]
            split at h
            · next h6 => simp only [h6, if_true]; cases h; rfl
            · next h6 =>
              simp only [h6, if_false]
              split at h
              · next h7 => simp only [h7, if_true]; cases h; rfl
              · next h7 =>
                simp only [h7, if_false]
                split at h
                · next h8 => simp only [h8, if_true]; cases h; rfl
                · next h8 =>
                  simp only [h8, if_false]
                  split at h
                  · cases h
                  · next h9 => simp only [h9, if_false]; cases h; rfl

theorem scanChar_frame {m m' : Mode} {d d' : List Char} {c : Char} (r : List Char) (h : scanChar (m, d) c = some (m', d')) :
    scanChar (m, d ++ r) c = some (m', d' ++ r) := by
  cases m with
  | code => exact scanCode_frame r h
  | slash =>
    simp only [scanChar] at h ⊢
    split at h
    · cases h
    · next h1 => simp only [h1, if_false]; exact scanCode_frame r h
  | single =>
    simp only [scanChar] at h ⊢
    split at h
    · next h1 => simp only [h1, if_true]; cases h; rfl
    · next h1 =>
      simp only [h1, if_false]
      split at h
      · next h2 => simp only [h2, if_true]; cases h; rfl
      · next h2 => simp only [h2, if_false]; cases h; rfl
  | double =>
    simp only [scanChar] at h ⊢
    split at h
    · next h1 => simp only [h1, if_true]; cases h; rfl
    · next h1 =>
      simp only [h1, if_false]
      split at h
      · next h2 => simp only [h2, if_true]; cases h; rfl
      · next h2 => simp only [h2, if_false]; cases h; rfl
  | singleEsc => cases h; rfl
  | doubleEsc => cases h; rfl
  | back =>
    simp only [scanChar] at h ⊢
    split at h
    · next h1 => simp only [h1, if_true]; cases h; rfl
    · next h1 => simp only [h1, if_false]; cases h; rfl

/-- What is open outside does not matter for a text that is read to its end. -/
theorem scan_frame {m m' : Mode} {d d' : List Char} {s : Str} (r : List Char) (h : scan (m, d) s = some (m', d')) :
    scan (m, d ++ r) s = some (m', d' ++ r) := by
  induction s generalizing m d with
  | nil => cases h; rfl
  | cons c cs ih =>
    simp only [scan] at h ⊢
    cases hc : scanChar (m, d) c with
    | none => simp [hc] at h
    | some y =>
      obtain ⟨m1, d1⟩ := y
      simp only [hc] at h
      rw [scanChar_frame r hc]
      exact ih h

/-- A text that opens brackets and one that closes them. -/
def Fits (op cl : Str) : Prop := ∃ d, scan (.code, []) op = some (.code, d) ∧ scan (.code, d) cl = some (.code, [])

theorem Spec.Balanced.at {s : Str} (h : Balanced s) (d : List Char) : scan (.code, d) s = some (.code, d) := scan_frame d h

theorem Spec.Balanced.nil : Balanced [] := rfl

theorem Spec.Balanced.append {s t : Str} (hs : Balanced s) (ht : Balanced t) : Balanced (s ++ t) := by
  unfold Balanced at *
  rw [scan_append, hs]
  exact ht

theorem Fits.wrap {op cl s : Str} (h : Fits op cl) (hs : Balanced s) : Balanced (op ++ s ++ cl) := by
  obtain ⟨d, h1, h2⟩ := h
  have h3 := Balanced.at hs d
  unfold Balanced
  rw [scan_append, scan_append, h1]
  simp only [Option.bind, h3, h2]

theorem Spec.Balanced.fits {s : Str} (h : Balanced s) : Fits s [] := ⟨[], h, rfl⟩
theorem Spec.Balanced.fits' {s t : Str} (h : Balanced s) (ht : Balanced t) : Fits s t := ⟨[], h, ht⟩

/-- A name before an opening bracket. -/
theorem Fits.prepend {s op cl : Str} (hs : Balanced s) (h : Fits op cl) : Fits (s ++ op) cl := by
  obtain ⟨d, h1, h2⟩ := h
  exact ⟨d, by rw [scan_append, hs]; exact h1, h2⟩

theorem Fits.append {s op cl : Str} (hs : Balanced s) (h : Fits op cl) : Fits op (cl ++ s) := by
  obtain ⟨d, h1, h2⟩ := h
  exact ⟨d, h1, by rw [scan_append, h2]; exact hs⟩

/-! ### Texts -/

/-- A character without meaning for the reader. -/
def Dull (c : Char) : Prop := scanCode [] c = some (.code, [])

theorem dull_of {c : Char} (h : c ≠ '(' ∧ c ≠ '[' ∧ c ≠ '{' ∧ c ≠ ')' ∧ c ≠ ']' ∧ c ≠ '}' ∧ c ≠ '\'' ∧ c ≠ '"' ∧ c ≠ '`' ∧ c ≠ '/' ∧ c ≠ ';') : Dull c := by
  obtain ⟨h1, h2, h3, h4, h5, h6, h7, h8, h9, h10, h11⟩ := h
  simp [Dull, scanCode, h1, h2, h3, h4, h5, h6, h7, h8, h9, h10, h11]

theorem balanced_cons {c : Char} {s : Str} (hc : Dull c) (hs : Balanced s) : Balanced (c :: s) := by
  unfold Balanced at *
  simp only [scan, scanChar]
  rw [hc]
  exact hs

theorem balanced_dull {s : Str} (h : ∀ c ∈ s, Dull c) : Balanced s := by
  induction s with
  | nil => exact Balanced.nil
  | cons c cs ih => exact balanced_cons (h c (by simp)) (ih fun x hx => h x (by simp [hx]))

section
variable (u : Unicode)

theorem dull_space {c : Char} (h : u.isSpace c = true) : Dull c := by
  apply dull_of
  refine ⟨?_, ?_, ?_, ?_, ?_, ?_, ?_, ?_, ?_, ?_, ?_⟩ <;>
    (rintro rfl; rw [u.space_ascii _ (by decide)] at h; revert h; decide)

theorem dull_letter {c : Char} (h : u.isLetter c = true) : Dull c := by
  apply dull_of
  refine ⟨?_, ?_, ?_, ?_, ?_, ?_, ?_, ?_, ?_, ?_, ?_⟩ <;>
    (rintro rfl; rw [u.letter_ascii _ (by decide)] at h; revert h; decide)

theorem dull_digit {c : Char} (h : u.isDigit c = true) : Dull c := by
  apply dull_of
  refine ⟨?_, ?_, ?_, ?_, ?_, ?_, ?_, ?_, ?_, ?_, ?_⟩ <;>
    (rintro rfl; rw [u.digit_ascii _ (by decide)] at h; revert h; decide)

theorem dull_underscore : Dull '_' := by unfold Dull; rfl

theorem dull_ident {c : Char} (h : identRest u c = true) : Dull c := by
  simp only [identRest, Bool.or_eq_true, decide_eq_true_eq] at h
  rcases h with (h | rfl) | h
  · exact dull_letter u h
  · exact dull_underscore
  · exact dull_digit u h

theorem identRest_of_start {c : Char} (h : identStart u c = true) : identRest u c = true := by
  simp only [identStart, identRest, Bool.or_eq_true] at h ⊢
  exact .inl h

theorem balanced_identifier {s : Str} (h : isIdentifier u s = true) : Balanced s := by
  cases s with
  | nil => exact Balanced.nil
  | cons c cs =>
    simp only [isIdentifier, Bool.and_eq_true, List.all_eq_true] at h
    exact balanced_cons (dull_ident u (identRest_of_start u h.1)) (balanced_dull fun x hx => dull_ident u (h.2 x hx))

theorem scan_backquoted (s : Str) (d : List Char) : scan (.back, d) (replaceChar '`' ['`', '`'] s ++ ['`']) = some (.code, d) := by
  induction s with
  | nil => rfl
  | cons c cs ih =>
    simp only [replaceChar, List.flatMap_cons] at ih ⊢
    by_cases h : c = '`'
    · subst h
      simp only [if_true, List.cons_append, List.nil_append, scan, scanChar]
      exact ih
    · simp only [h, if_false, List.cons_append, List.nil_append, scan, scanChar]
      exact ih

theorem balanced_escapeName (s : Str) : Balanced (escapeName s) := scan_backquoted s []

theorem balanced_escapeIfNecessary (s : Str) : Balanced (escapeIfNecessary u s) := by
  unfold escapeIfNecessary
  split
  · next h =>
    rcases h with h | h
    · rw [trimSpace_length_zero] at h
      exact balanced_dull fun c hc => dull_space u (List.all_eq_true.1 h c hc)
    · exact balanced_identifier u h
  · exact balanced_escapeName s

theorem scan_quoted (s : Str) (d : List Char) : scan (.single, d) (escapeStringLiteral s ++ ['\'']) = some (.code, d) := by
  induction s with
  | nil => rfl
  | cons c cs ih =>
    simp only [escapeStringLiteral, List.flatMap_cons] at ih ⊢
    by_cases h : isReservedChar c = true
    · simp only [h, if_true, List.cons_append, List.nil_append, scan, scanChar]
      exact ih
    · have h1 : c ≠ '\\' := by rintro rfl; exact h rfl
      have h2 : c ≠ '\'' := by rintro rfl; exact h rfl
      simp only [h, if_false, Bool.false_eq_true, List.cons_append, List.nil_append, scan, scanChar, h1, h2]
      exact ih

theorem balanced_stringLiteral (s : Str) : Balanced (stringLiteralText s) := scan_quoted s []

theorem dull_digitChar (n : Nat) : Dull (digitChar n) := by
  have h : n % 10 < 10 := Nat.mod_lt _ (by decide)
  unfold digitChar
  generalize n % 10 = m at h
  have : m = 0 ∨ m = 1 ∨ m = 2 ∨ m = 3 ∨ m = 4 ∨ m = 5 ∨ m = 6 ∨ m = 7 ∨ m = 8 ∨ m = 9 := by omega
  rcases this with rfl | rfl | rfl | rfl | rfl | rfl | rfl | rfl | rfl | rfl <;> (unfold Dull; decide)

theorem dull_natDigits (n : Nat) : ∀ c ∈ natDigits n, Dull c := by
  intro c hc
  obtain ⟨m, rfl⟩ := natDigitsAux_all _ _ c hc
  exact dull_digitChar m

theorem balanced_natDigits (n : Nat) : Balanced (natDigits n) := balanced_dull (dull_natDigits n)

theorem balanced_itoa (i : Int) : Balanced (itoa i) := by
  cases i with
  | ofNat n => exact balanced_natDigits n
  | negSucc n => exact balanced_cons (by unfold Dull; decide) (balanced_natDigits _)

theorem balanced_expText (e : Nat) : Balanced (expText e) := by
  unfold expText
  refine Balanced.append (by decide) ?_
  split
  · exact balanced_cons (by unfold Dull; decide) (balanced_natDigits _)
  · exact balanced_natDigits _

theorem balanced_bigFloat (n : Nat) : Balanced (bigFloatNatText n) := by
  simp only [bigFloatNatText]
  split
  · exact balanced_natDigits n
  · generalize hq : roundDiv n ((natDigits n).length - 10) = q
    have hz : ∀ c ∈ trimZeros (natDigits q), Dull c := by
      intro c hc
      apply dull_natDigits q
      simp only [trimZeros, List.mem_reverse] at hc
      exact List.mem_reverse.1 ((List.dropWhile_sublist _).mem hc)
    split
    · exact Balanced.nil
    · next d h => rw [h] at hz; exact balanced_cons (hz d (by simp)) (balanced_expText _)
    · next d ds _ h =>
      rw [h] at hz
      refine balanced_cons (hz d (by simp)) (balanced_cons (by unfold Dull; decide) (Balanced.append ?_ (balanced_expText _)))
      exact balanced_dull fun c hc => hz c (by simp [hc])

theorem balanced_int (i : Int) : Balanced (intLiteralText i) := by
  cases i with
  | ofNat n => exact balanced_bigFloat n
  | negSucc n => exact balanced_cons (by unfold Dull; decide) (balanced_bigFloat _)

theorem dull_trim {s : Str} (h : ∀ c ∈ s, Dull c) : ∀ c ∈ trimZeros s, Dull c := by
  intro c hc
  simp only [trimZeros, List.mem_reverse] at hc
  exact h c (List.mem_reverse.1 ((List.dropWhile_sublist _).mem hc))

theorem dull_fmtG {mant : Str} (h : ∀ c ∈ mant, Dull c) (exp : Int) : ∀ c ∈ fmtG mant exp, Dull c := by
  have h0 : Dull '0' := by unfold Dull; decide
  have hp : Dull '.' := by unfold Dull; decide
  have he : Dull 'e' := by unfold Dull; decide
  have hs : Dull '-' ∧ Dull '+' := by unfold Dull; decide
  simp only [fmtG]
  generalize (if mant.length < 10 ∧ exp ≤ mant.length then (mant.length : Int) else 10) = eprec
  generalize (((if exp < 10 then (mant.length : Int) else 10) - exp).toNat) = prec
  split
  · intro c hc
    unfold fmtE at hc
    split at hc
    · simp at hc
    · next d ds =>
      have hn := dull_natDigits (exp - 1).natAbs
      have : c = d ∨ c ∈ ds ∨ c = '.' ∨ c = 'e' ∨ c = '-' ∨ c = '+' ∨ c = '0' ∨ c ∈ natDigits (exp - 1).natAbs := by
        simp only [List.cons_append, List.mem_cons, List.mem_append] at hc
        rcases hc with hc | hc | hc | hc | hc
        · simp [hc]
        · split at hc
          · simp at hc
          · simp only [List.mem_cons] at hc; rcases hc with hc | hc <;> simp [hc]
        · simp [hc]
        · split at hc <;> simp [hc]
        · split at hc
          · simp only [List.mem_cons] at hc; rcases hc with hc | hc <;> simp [hc]
          · simp [hc]
      rcases this with rfl | hc | rfl | rfl | rfl | rfl | rfl | hc
      · exact h c (by simp)
      · exact h c (by simp [hc])
      · exact hp
      · exact he
      · exact hs.1
      · exact hs.2
      · exact h0
      · exact hn c hc
  · intro c hc
    simp only [fmtF, List.mem_append] at hc
    rcases hc with hc | hc
    · split at hc
      · rcases List.mem_append.mp hc with hc | hc
        · exact h c (List.mem_of_mem_take hc)
        · rw [(List.mem_replicate.mp hc).2]; exact h0
      · simp at hc; rw [hc]; exact h0
    · split at hc
      · rcases List.mem_cons.mp hc with rfl | hc
        · exact hp
        · obtain ⟨i, -, rfl⟩ := List.mem_map.mp hc
          unfold digitAt
          split
          · rw [List.getD_eq_getElem?_getD]
            cases hg : mant[(exp + (i : Int)).toNat]? with
            | none => exact h0
            | some x => exact h x (List.mem_of_getElem? hg)
          · exact h0
      · simp at hc

theorem balanced_float {f : GoFloat} {t : Str} (h : floatText f = some t) : Balanced t := by
  have hd : ∀ D s, Balanced (decimalText D s) := by
    intro D s
    unfold decimalText
    split
    · exact balanced_dull (dull_fmtG (by simp) 0)
    · exact balanced_dull (dull_fmtG (dull_trim (dull_natDigits _)) _)
  cases f with
  | nan => cases h
  | inf n => cases n <;> (cases h; decide)
  | fin n m e =>
    cases h
    cases n
    · exact hd _ _
    · exact balanced_cons (by unfold Dull; decide) (hd _ _)

theorem balanced_join {sep : Str} (hs : Balanced sep) : ∀ {xs : List Str}, (∀ x ∈ xs, Balanced x) → Balanced (join sep xs)
  | [], _ => Balanced.nil
  | [x], h => h x (by simp)
  | x :: y :: xs, h => ((h x (by simp)).append hs).append (balanced_join hs fun z hz => h z (by simp [hz]))

theorem balanced_bool (b : Bool) : Balanced (boolText b) := by cases b <;> decide

theorem parameterCreate_balanced {s n : Str} (hs : Balanced s) (h : parameterCreate s = .ok n) : Balanced n := by
  induction s with
  | nil => cases h
  | cons c cs ih =>
    simp only [parameterCreate] at h
    split at h
    · next hc => subst hc; exact ih hs h
    · cases h; exact hs

/-! ### Trimming -/

theorem whole_dropWhile {s : Str} (hs : Whole s) : Whole (s.dropWhile u.isSpace) := by
  induction s with
  | nil => exact hs
  | cons c cs ih =>
    simp only [List.dropWhile_cons]
    split
    · next h =>
      apply ih
      have := dull_space u h
      unfold Whole at hs
      simp only [scan, scanChar] at hs
      rw [this] at hs
      exact hs
    · exact hs

theorem scanCode_dull {c : Char} (hc : Dull c) (d : List Char) : scanCode d c = some (.code, d) := scanCode_frame d hc

theorem scan_space_end {c : Char} (hc : Dull c) {m m' : Mode} {d : List Char} (h : scanChar (m, d) c = some (m', []))
    (hm : m' = .code ∨ m' = .slash) : (m = .code ∨ m = .slash) ∧ d = [] := by
  cases m with
  | code =>
    simp only [scanChar, scanCode_dull hc] at h
    cases h
    exact ⟨.inl rfl, rfl⟩
  | slash =>
    simp only [scanChar] at h
    split at h
    · cases h
    · rw [scanCode_dull hc] at h
      cases h
      exact ⟨.inr rfl, rfl⟩
  | single =>
    simp only [scanChar] at h
    split at h
    · cases h; simp at hm
    · split at h
      · next h2 => subst h2; exact absurd hc (by unfold Dull; decide)
      · cases h; simp at hm
  | double =>
    simp only [scanChar] at h
    split at h
    · cases h; simp at hm
    · split at h
      · next h2 => subst h2; exact absurd hc (by unfold Dull; decide)
      · cases h; simp at hm
  | singleEsc => cases h; simp at hm
  | doubleEsc => cases h; simp at hm
  | back =>
    simp only [scanChar] at h
    split at h
    · next h2 => subst h2; exact absurd hc (by unfold Dull; decide)
    · cases h; simp at hm

theorem whole_iff {s : Str} : Whole s ↔ ∃ m, scan (.code, []) s = some (m, []) ∧ (m = .code ∨ m = .slash) := by
  constructor
  · rintro (h | h)
    · exact ⟨_, h, .inl rfl⟩
    · exact ⟨_, h, .inr rfl⟩
  · rintro ⟨m, h, rfl | rfl⟩
    · exact .inl h
    · exact .inr h

theorem whole_dropEnd {s : Str} (r : Str) (hr : r.reverse = s) (hs : Whole s) : Whole (r.dropWhile u.isSpace).reverse := by
  induction r generalizing s with
  | nil => exact .inl rfl
  | cons c cs ih =>
    simp only [List.dropWhile_cons]
    split
    · next h =>
      refine ih rfl ?_
      rw [List.reverse_cons] at hr
      subst hr
      obtain ⟨m', hs, hm⟩ := whole_iff.1 hs
      rw [whole_iff]
      rw [scan_append] at hs
      cases hx : scan (.code, []) cs.reverse with
      | none => simp [hx] at hs
      | some y =>
        obtain ⟨m, d⟩ := y
        simp only [hx, Option.bind, scan] at hs
        cases hy : scanChar (m, d) c with
        | none => simp [hy] at hs
        | some z =>
          simp only [hy] at hs
          cases hs
          obtain ⟨hm1, rfl⟩ := scan_space_end (dull_space u h) hy hm
          exact ⟨m, rfl, hm1⟩
    · rw [hr]; exact hs

theorem whole_trimSpace {s : Str} (hs : Balanced s) : Whole (trimSpace u s) :=
  whole_dropEnd u (trimLeft u s).reverse (List.reverse_reverse _) (whole_dropWhile u hs.whole)

end

/-! ### Trees -/

/-- The fixed texts of a construct. -/
def Kind.Ok : Kind → Prop
  | .plain op cl _ => Fits op cl
  | .node none => True
  | .node (some name) => Balanced name
  | .aliased _ tx => Balanced tx

mutual
/-- A tree all of whose texts are balanced. -/
def Tidy : Tree → Prop
  | .raw s => Balanced s
  | .node v kids => v.kind.Ok ∧ TidyL kids
def TidyL : List Tree → Prop
  | [] => True
  | t :: ts => Tidy t ∧ TidyL ts
end

/-- The aliases defined so far have balanced names. -/
def EnvOk (e : Env) : Prop := ∀ k a, e.al k = some a → Balanced a.text

theorem EnvOk.described {e : Env} (h : EnvOk e) (v : Vis) : EnvOk (described e v) := by
  unfold EnvOk; rw [described_al]; exact h

theorem EnvOk.defined {e : Env} (h : EnvOk e) {v : Vis} (hv : v.kind.Ok) : EnvOk (defined e v) := by
  unfold Spec.defined
  split
  · next a ha =>
    intro k b hb
    simp only at hb
    split at hb
    · cases hb
      unfold Vis.asAlias at ha
      split at ha
      · next hk => cases ha; rw [hk] at hv; exact hv
      · cases ha
    · exact h k b hb
  · exact h

mutual
theorem mute_ok (e : Env) (he : EnvOk e) (t : Tree) (h : Tidy t) : Balanced (mute e t).1 ∧ EnvOk (mute e t).2 := by
  cases t with
  | raw s => exact ⟨h, he⟩
  | node v kids =>
    obtain ⟨h1, h2⟩ := muteL_ok e he kids h.2
    exact ⟨h1, h2.defined h.1⟩
theorem muteL_ok (e : Env) (he : EnvOk e) (ts : List Tree) (h : TidyL ts) : Balanced (muteL e ts).1 ∧ EnvOk (muteL e ts).2 := by
  cases ts with
  | nil => exact ⟨Balanced.nil, he⟩
  | cons t ts =>
    obtain ⟨h1, h2⟩ := mute_ok e he t h.1
    obtain ⟨h3, h4⟩ := muteL_ok _ h2 ts h.2
    exact ⟨h1.append h3, h4⟩
end

/-- The texts around a construct, however it is shown. -/
theorem shown_fits (e : Env) (he : EnvOk e) (v : Vis) (hv : v.kind.Ok) :
    match Spec.shown e v with
    | .short op cl => Fits op cl
    | .full op cl => Fits op cl := by
  unfold Spec.shown
  cases hk : e.al v.key with
  | some a => exact (he _ a hk).fits
  | none =>
    obtain ⟨k, kind⟩ := v
    cases kind with
    | plain op cl sub => exact hv
    | node n =>
      cases n with
      | none => exact ⟨[')'], rfl, rfl⟩
      | some name =>
        simp only
        cases e.vis k with
        | true =>
          refine ⟨[')'], ?_, rfl⟩
          rw [scan_append]
          exact Balanced.at hv [')']
        | false => exact ⟨[')'], rfl, rfl⟩
    | aliased dk tx =>
      cases hd : (e.al dk).isSome with
      | true => simp only [hd, if_true]; exact ⟨[], hv, rfl⟩
      | false => simp only [hd, Bool.false_eq_true, if_false]; exact ⟨[], rfl, Balanced.append (s := c!" AS ") rfl hv⟩

theorem sepText_balanced (sub first : Bool) : Balanced (sepText sub first) := by cases sub <;> cases first <;> rfl

mutual
theorem den_ok (e : Env) (he : EnvOk e) (t : Tree) (h : Tidy t) : Balanced (den e t).1 ∧ EnvOk (den e t).2 := by
  cases t with
  | raw s => rw [den]; exact ⟨h, he⟩
  | node v kids =>
    have hf := shown_fits e he v h.1
    rw [den]
    cases hs : Spec.shown e v with
    | short op cl =>
      rw [hs] at hf
      obtain ⟨h1, h2⟩ := muteL_ok e he kids h.2
      exact ⟨hf.wrap h1, h2.defined h.1⟩
    | full op cl =>
      rw [hs] at hf
      obtain ⟨h1, h2⟩ := denL_ok v.kind.isSub true _ (he.described v) kids h.2
      exact ⟨hf.wrap h1, h2.defined h.1⟩
theorem denL_ok (sub first : Bool) (e : Env) (he : EnvOk e) (ts : List Tree) (h : TidyL ts) :
    Balanced (denL sub first e ts).1 ∧ EnvOk (denL sub first e ts).2 := by
  match ts with
  | [] => rw [denL]; exact ⟨Balanced.nil, he⟩
  | .raw s :: ts =>
    rw [denL]
    obtain ⟨h1, h2⟩ := denL_ok sub first e he ts h.2
    exact ⟨Balanced.append h.1 h1, h2⟩
  | .node v kids :: ts =>
    rw [denL]
    obtain ⟨h1, h2⟩ := den_ok e he (.node v kids) h.1
    obtain ⟨h3, h4⟩ := denL_ok sub false _ h2 ts h.2
    exact ⟨((sepText_balanced sub first).append h1).append h3, h4⟩
end

theorem EnvOk.empty : EnvOk Env.empty := by intro k a h; cases h

theorem TidyL_append {xs ys : List Tree} : TidyL (xs ++ ys) ↔ TidyL xs ∧ TidyL ys := by
  induction xs with
  | nil => simp [TidyL]
  | cons x xs ih => simp [TidyL, ih, and_assoc]

theorem TidyL_flatMap {α} {f : α → List Tree} {xs : List α} : TidyL (xs.flatMap f) ↔ ∀ x ∈ xs, TidyL (f x) := by
  induction xs with
  | nil => simp [TidyL]
  | cons x xs ih => simp [List.flatMap_cons, TidyL_append, ih]

theorem TidyL_map {α} {f : α → Tree} {xs : List α} : TidyL (xs.map f) ↔ ∀ x ∈ xs, Tidy (f x) := by
  induction xs with
  | nil => simp [TidyL]
  | cons x xs ih => simp [TidyL, ih]

theorem tidy_nd {k : Key} {op cl : Str} {sub : Bool} {kids : List Tree} (h : Fits op cl) (hk : TidyL kids) : Tidy (nd k op cl sub kids) := ⟨h, hk⟩

theorem tidy_leaf {k : Key} {s : Str} (h : Balanced s) : Tidy (leaf k s) := ⟨h.fits, trivial⟩

theorem tidy_one {t : Tree} (h : Tidy t) : TidyL [t] := ⟨h, trivial⟩

end Verif
