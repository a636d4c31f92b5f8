import Verif.Lexical
import Verif.LexSpec

namespace Verif
open Spec

theorem readStringBody_quote (r : Str) : readStringBody ('\'' :: r) = some ([], r) := by
  rw [readStringBody]

theorem readStringBody_esc (c c' : Char) (rest : Str) (h : unescape c = some c') :
    readStringBody ('\\' :: c :: rest) = (readStringBody rest).map (fun p => (c' :: p.1, p.2)) := by
  rw [readStringBody]
  simp only [h, Option.bind_eq_bind, Option.bind_some]
  cases readStringBody rest <;> rfl

theorem readStringBody_plain (c : Char) (rest : Str) (h : isReservedChar c = false) :
    readStringBody (c :: rest) = (readStringBody rest).map (fun p => (c :: p.1, p.2)) := by
  simp only [isReservedChar, Bool.or_eq_false_iff, decide_eq_false_iff_not] at h
  obtain ⟨⟨h1, h2⟩, h3⟩ := h
  rw [readStringBody.eq_def]
  split
  · simp_all
  · simp_all
  · simp_all
  · simp_all
  · rename_i heq
    cases heq
    simp only [Option.bind_eq_bind]
    cases readStringBody rest <;> rfl

theorem unescape_reserved (c : Char) (h : isReservedChar c = true) : unescape c = some c := by
  simp only [isReservedChar, Bool.or_eq_true, decide_eq_true_eq] at h
  rcases h with (rfl | rfl) | rfl <;> rfl

theorem readStringBody_escape (s r : Str) :
    readStringBody (escapeStringLiteral s ++ '\'' :: r) = some (s, r) := by
  induction s with
  | nil => exact readStringBody_quote r
  | cons c cs ih =>
    have hstep : escapeStringLiteral (c :: cs)
        = (if isReservedChar c then ['\\', c] else [c]) ++ escapeStringLiteral cs := by
      simp [escapeStringLiteral]
    rw [hstep]
    cases hc : isReservedChar c with
    | true =>
      simp only [if_true, List.cons_append, List.nil_append]
      rw [readStringBody_esc c c _ (unescape_reserved c hc), ih]; rfl
    | false =>
      simp only [Bool.false_eq_true, if_false, List.cons_append, List.nil_append]
      rw [readStringBody_plain c _ hc, ih]; rfl

theorem readQuotedBody_two (rest : Str) :
    readQuotedBody ('`' :: '`' :: rest) = (readQuotedBody rest).map (fun p => ('`' :: p.1, p.2)) := by
  rw [readQuotedBody]
  simp only [Option.bind_eq_bind]
  cases readQuotedBody rest <;> rfl

theorem readQuotedBody_end (r : Str) (h : r.head? ≠ some '`') : readQuotedBody ('`' :: r) = some ([], r) := by
  cases r with
  | nil => rw [readQuotedBody]; intro _ h; cases h
  | cons c cs =>
    rw [readQuotedBody]
    intro rest heq
    cases heq
    simp at h

theorem readQuotedBody_plain (c : Char) (rest : Str) (h : c ≠ '`') :
    readQuotedBody (c :: rest) = (readQuotedBody rest).map (fun p => (c :: p.1, p.2)) := by
  rw [readQuotedBody.eq_def]
  split
  · simp_all
  · simp_all
  · simp_all
  · rename_i heq
    cases heq
    simp only [Option.bind_eq_bind]
    cases readQuotedBody rest <;> rfl

theorem readQuotedBody_escape (s r : Str) (h : r.head? ≠ some '`') :
    readQuotedBody (replaceChar '`' ['`', '`'] s ++ '`' :: r) = some (s, r) := by
  induction s with
  | nil => exact readQuotedBody_end r h
  | cons c cs ih =>
    have hstep : replaceChar '`' ['`', '`'] (c :: cs)
        = (if c = '`' then ['`', '`'] else [c]) ++ replaceChar '`' ['`', '`'] cs := by
      simp [replaceChar]
    rw [hstep]
    by_cases hc : c = '`'
    · subst hc
      simp only [if_true, List.cons_append, List.nil_append]
      rw [readQuotedBody_two, ih]; rfl
    · simp only [hc, if_false, List.cons_append, List.nil_append]
      rw [readQuotedBody_plain c _ hc, ih]; rfl

theorem readNameParts_all (u : Unicode) (s r : Str) (hs : s.all (identRest u) = true)
    (hr : ∀ c, r.head? = some c → ¬ isNamePart u c) :
    readNameParts u (s ++ r) = (s, r) := by
  induction s with
  | nil =>
    cases r with
    | nil => rfl
    | cons c cs =>
      have := hr c rfl
      simp [readNameParts, this]
  | cons c cs ih =>
    simp only [List.all_cons, Bool.and_eq_true] at hs
    have hc : isNamePart u c := by
      have := hs.1
      simp only [identRest, Bool.or_eq_true, decide_eq_true_eq] at this
      unfold isNamePart
      exact or_assoc.mp this
    simp only [List.cons_append, readNameParts, hc, if_true, ih hs.2]

theorem backquote_not_start (u : Unicode) : identStart u '`' = false := by
  have h := u.letter_ascii '`' (by decide)
  simp only [identStart, h]
  decide

theorem dropWhile_eq_nil_iff' {α} (p : α → Bool) (l : List α) : l.dropWhile p = [] ↔ ∀ x ∈ l, p x = true := by
  induction l with
  | nil => simp
  | cons a l ih =>
    simp only [List.dropWhile_cons, List.mem_cons, forall_eq_or_imp]
    split
    · rename_i h; simp [ih, h]
    · rename_i h; simp [h]

theorem head_dropWhile_false {α} (p : α → Bool) (l : List α) (h : l.dropWhile p ≠ []) :
    p ((l.dropWhile p).head h) = false := by
  induction l with
  | nil => simp at h
  | cons a l ih =>
    by_cases ha : p a = true
    · simp only [List.dropWhile_cons, ha, if_true] at h ⊢
      exact ih h
    · simp only [List.dropWhile_cons, ha] at h ⊢
      simpa using ha

/-- Trimming leaves nothing exactly when everything is white space. -/
theorem trimSpace_length_zero (u : Unicode) (s : Str) :
    (trimSpace u s).length = 0 ↔ s.all u.isSpace = true := by
  unfold trimSpace trimLeft
  constructor
  · intro h
    have h1 : List.dropWhile u.isSpace (List.dropWhile u.isSpace s).reverse = [] := by
      simpa using h
    have h2 := (dropWhile_eq_nil_iff' _ _).mp h1
    rw [List.all_eq_true]
    intro x hx
    by_cases hd : List.dropWhile u.isSpace s = []
    · exact (dropWhile_eq_nil_iff' _ _).mp hd x hx
    · exfalso
      have hh := head_dropWhile_false u.isSpace s hd
      have := h2 _ (List.mem_reverse.mpr (List.head_mem hd))
      simp_all
  · intro h
    rw [List.all_eq_true] at h
    have : List.dropWhile u.isSpace s = [] := (dropWhile_eq_nil_iff' _ _).mpr h
    simp [this]

theorem digitVal_digitChar (n : Nat) : digitVal (digitChar n) = some (n % 10) := by
  have h : n % 10 < 10 := Nat.mod_lt _ (by decide)
  unfold digitChar
  generalize n % 10 = m at *
  match m, h with
  | 0, _ => rfl
  | 1, _ => rfl
  | 2, _ => rfl
  | 3, _ => rfl
  | 4, _ => rfl
  | 5, _ => rfl
  | 6, _ => rfl
  | 7, _ => rfl
  | 8, _ => rfl
  | 9, _ => rfl

theorem readNatAux_append (a : Nat) (s t : Str) :
    readNatAux a (s ++ t) = (readNatAux a s).bind (fun b => readNatAux b t) := by
  induction s generalizing a with
  | nil => rfl
  | cons c cs ih =>
    simp only [List.cons_append, readNatAux, Option.bind_eq_bind]
    cases digitVal c with
    | none => rfl
    | some d => simp only [Option.bind_some]; exact ih _

theorem readNatAux_digits (fuel n a : Nat) (hf : n < fuel) :
    ∃ k, readNatAux a (natDigitsAux fuel n) = some (a * 10 ^ k + n) := by
  induction fuel generalizing n with
  | zero => omega
  | succ f ih =>
    rw [natDigitsAux]
    by_cases h : n < 10
    · simp only [h, if_true]
      refine ⟨1, ?_⟩
      simp [readNatAux, digitVal_digitChar, Nat.mod_eq_of_lt h]
    · simp only [h, if_false]
      obtain ⟨k, hk⟩ := ih (n / 10) (by omega)
      refine ⟨k + 1, ?_⟩
      rw [readNatAux_append, hk]
      simp only [Option.bind_some, readNatAux, digitVal_digitChar, Option.bind_eq_bind]
      rw [Nat.pow_succ, ← Nat.mul_assoc]
      generalize a * 10 ^ k = b
      congr 1
      omega

theorem natDigitsAux_ne_nil (fuel n : Nat) : natDigitsAux (fuel + 1) n ≠ [] := by
  rw [natDigitsAux]; split <;> simp

theorem natDigits_ne_nil (n : Nat) : natDigits n ≠ [] := natDigitsAux_ne_nil n n

theorem readNat_natDigits (n : Nat) : readNat (natDigits n) = some n := by
  obtain ⟨k, hk⟩ := readNatAux_digits (n + 1) n 0 (by omega)
  have hne := natDigits_ne_nil n
  unfold natDigits at *
  cases h : natDigitsAux (n + 1) n with
  | nil => exact absurd h hne
  | cons c cs => rw [h] at hk; simpa [readNat] using hk

theorem digitChar_ne_minus (n : Nat) : digitChar n ≠ '-' := by
  intro h
  have := digitVal_digitChar n
  rw [h] at this
  simp [digitVal] at this

theorem natDigitsAux_all (fuel n : Nat) : ∀ c ∈ natDigitsAux fuel n, ∃ m, c = digitChar m := by
  induction fuel generalizing n with
  | zero => simp [natDigitsAux]
  | succ f ih =>
    rw [natDigitsAux]
    split
    · intro c hc; simp at hc; exact ⟨n, hc⟩
    · intro c hc
      simp only [List.mem_append, List.mem_singleton] at hc
      rcases hc with hc | hc
      · exact ih _ c hc
      · exact ⟨n, hc⟩

theorem natDigits_head (n : Nat) (c : Char) (cs : Str) (h : natDigits n = c :: cs) : c ≠ '-' := by
  obtain ⟨m, rfl⟩ := natDigitsAux_all (n + 1) n c (by unfold natDigits at h; rw [h]; simp)
  exact digitChar_ne_minus m

theorem readInt_natDigits (n : Nat) : readInt (natDigits n) = some (n : Int) := by
  have h := readNat_natDigits n
  unfold readInt
  split
  · rename_i s heq
    exact absurd rfl (natDigits_head n _ _ heq)
  · rw [h]; rfl

theorem readInt_itoa (i : Int) : readInt (itoa i) = some i := by
  cases i with
  | ofNat n => exact readInt_natDigits n
  | negSucc n =>
    show readInt ('-' :: natDigits (n + 1)) = _
    rw [readInt, readNat_natDigits]
    rfl

theorem natDigitsAux_length_le (fuel n k : Nat) (h : n < 10 ^ (k + 1)) : (natDigitsAux fuel n).length ≤ k + 1 := by
  induction fuel generalizing n k with
  | zero => simp [natDigitsAux]
  | succ f ih =>
    rw [natDigitsAux]
    split
    · simp
    · cases k with
      | zero => omega
      | succ k =>
        have : n / 10 < 10 ^ (k + 1) := by
          rw [Nat.div_lt_iff_lt_mul (by decide)]
          rw [Nat.pow_succ] at h
          exact h
        have := ih (n / 10) k this
        simp only [List.length_append, List.length_singleton]
        omega

theorem natDigitsAux_length_ge (fuel n k : Nat) (hf : n < fuel) (h : 10 ^ k ≤ n) :
    k + 1 ≤ (natDigitsAux fuel n).length := by
  induction fuel generalizing n k with
  | zero => omega
  | succ f ih =>
    rw [natDigitsAux]
    split
    · cases k with
      | zero => simp
      | succ k =>
        have : 10 ^ 1 ≤ 10 ^ (k + 1) := Nat.pow_le_pow_right (by decide) (by omega)
        omega
    · cases k with
      | zero => simp
      | succ k =>
        have : 10 ^ k ≤ n / 10 := by
          rw [Nat.le_div_iff_mul_le (by decide)]
          rw [Nat.pow_succ] at h
          exact h
        have := ih (n / 10) k (by omega) this
        simp only [List.length_append, List.length_singleton]
        omega

/-- A natural number has at most ten digits exactly if it is below `10^10`. -/
theorem natDigits_length_le_ten (n : Nat) : (natDigits n).length ≤ 10 ↔ n < 10 ^ 10 := by
  constructor
  · intro h
    by_cases hn : 10 ^ 10 ≤ n
    · have := natDigitsAux_length_ge (n + 1) n 10 (by omega) hn
      unfold natDigits at h
      omega
    · omega
  · intro h
    exact natDigitsAux_length_le (n + 1) n 9 h

theorem readNatAux_none_of_mem (a : Nat) (s : Str) (c : Char) (hc : c ∈ s) (hd : digitVal c = none) :
    readNatAux a s = none := by
  induction s generalizing a with
  | nil => simp at hc
  | cons x xs ih =>
    simp only [readNatAux, Option.bind_eq_bind]
    cases hx : digitVal x with
    | none => rfl
    | some d =>
      simp only [Option.bind_some]
      rcases List.mem_cons.mp hc with rfl | hm
      · rw [hd] at hx; cases hx
      · exact ih _ hm

theorem readNat_none_of_mem (s : Str) (c : Char) (hc : c ∈ s) (hd : digitVal c = none) : readNat s = none := by
  cases s with
  | nil => simp at hc
  | cons x xs => exact readNatAux_none_of_mem 0 _ c hc hd

theorem readInt_none_of_e (s : Str) (hc : 'e' ∈ s) : readInt s = none := by
  unfold readInt
  split
  · rename_i s'
    have : 'e' ∈ s' := by
      rcases List.mem_cons.mp hc with h | h
      · exact absurd h (by decide)
      · exact h
    rw [readNat_none_of_mem s' 'e' this (by decide)]; rfl
  · rw [readNat_none_of_mem _ 'e' hc (by decide)]; rfl

theorem e_mem_expText (e : Nat) : 'e' ∈ expText e := by simp [expText]

theorem bigFloatNatText_big (n : Nat) (h : ¬ n < 10 ^ 10) : bigFloatNatText n = [] ∨ 'e' ∈ bigFloatNatText n := by
  have hk : ¬ (natDigits n).length ≤ 10 := fun hh => h ((natDigits_length_le_ten n).mp hh)
  unfold bigFloatNatText
  simp only [hk, if_false]
  split
  · exact Or.inl rfl
  · exact Or.inr (List.mem_cons_of_mem _ (e_mem_expText _))
  · right
    simp only [List.mem_cons, List.mem_append]
    exact Or.inr (Or.inr (Or.inr (e_mem_expText _)))

end Verif
