import Verif.Floats
import Verif.FloatSpec
import Verif.LexLemmas
import Mathlib.Tactic.Ring
import Mathlib.Tactic.FieldSimp
import Mathlib.Tactic.Linarith
import Mathlib.Tactic.Positivity
import Mathlib.Tactic.NormNum

/-
Lemmas about the text of numbers with a fraction.
-/

namespace Verif
open Spec

/-- A string of decimal digits. -/
def Digits (s : Str) : Prop := ∀ c ∈ s, ∃ n, digitVal c = some n

/-- Its value. -/
def digitsVal (s : Str) : Nat := (readNatAux 0 s).getD 0

theorem readNatAux_value (s : Str) (h : Digits s) (a : Nat) : readNatAux a s = some (a * 10 ^ s.length + digitsVal s) := by
  induction s generalizing a with
  | nil => simp [readNatAux, digitsVal]
  | cons c cs ih =>
    obtain ⟨n, hn⟩ := h c (by simp)
    have hc : Digits cs := fun x hx => h x (by simp [hx])
    have h0 : digitsVal (c :: cs) = n * 10 ^ cs.length + digitsVal cs := by
      simp [digitsVal, readNatAux, hn, ih hc n]
    rw [h0]
    simp only [readNatAux, hn, Option.bind_eq_bind, Option.bind_some, ih hc, List.length_cons]
    congr 1
    ring

theorem readNat_digits {s : Str} (h : Digits s) (hne : s ≠ []) : readNat s = some (digitsVal s) := by
  cases s with
  | nil => exact absurd rfl hne
  | cons c cs => rw [readNat, readNatAux_value _ h]; simp; simp

theorem Digits.append {a b : Str} (ha : Digits a) (hb : Digits b) : Digits (a ++ b) := fun c hc => by
  rcases List.mem_append.mp hc with h | h
  · exact ha c h
  · exact hb c h

theorem digitsVal_append {a b : Str} (ha : Digits a) (hb : Digits b) : digitsVal (a ++ b) = digitsVal a * 10 ^ b.length + digitsVal b := by
  have h := readNatAux_append 0 a b
  rw [readNatAux_value _ (ha.append hb), readNatAux_value _ ha, Option.bind_some, readNatAux_value _ hb] at h
  simpa using h

theorem digits_zeros (n : Nat) : Digits (List.replicate n '0') := fun c hc => by
  rw [(List.mem_replicate.mp hc).2]; exact ⟨0, rfl⟩

theorem digitsVal_zeros (n : Nat) : digitsVal (List.replicate n '0') = 0 := by
  induction n with
  | zero => rfl
  | succ n ih =>
    rw [List.replicate_succ', digitsVal_append (digits_zeros n) (by simpa using digits_zeros 1), ih]
    rfl

theorem digits_natDigits (n : Nat) : Digits (natDigits n) := fun c hc => by
  obtain ⟨m, rfl⟩ := natDigitsAux_all _ _ c hc
  exact ⟨_, digitVal_digitChar m⟩

theorem digitsVal_natDigits (n : Nat) : digitsVal (natDigits n) = n := by
  have h := readNat_natDigits n
  rw [readNat_digits (digits_natDigits n) (natDigits_ne_nil n)] at h
  exact Option.some.inj h

theorem trimZeros_append (s : Str) : ∃ n, s = trimZeros s ++ List.replicate n '0' := by
  refine ⟨(s.reverse.takeWhile (· = '0')).length, ?_⟩
  have h : s.reverse = s.reverse.takeWhile (· = '0') ++ s.reverse.dropWhile (· = '0') := (List.takeWhile_append_dropWhile).symm
  have hz : s.reverse.takeWhile (· = '0') = List.replicate (s.reverse.takeWhile (· = '0')).length '0' :=
    List.eq_replicate_iff.mpr ⟨rfl, fun c hc => by simpa using List.all_eq_true.mp List.all_takeWhile c hc⟩
  calc s = s.reverse.reverse := by simp
    _ = (s.reverse.takeWhile (· = '0') ++ s.reverse.dropWhile (· = '0')).reverse := by rw [← h]
    _ = trimZeros s ++ (s.reverse.takeWhile (· = '0')).reverse := by rw [List.reverse_append, trimZeros]
    _ = _ := by rw [hz, List.reverse_replicate, List.length_replicate]

theorem Digits.trim {s : Str} (h : Digits s) : Digits (trimZeros s) := fun c hc => by
  obtain ⟨n, hn⟩ := trimZeros_append s
  exact h c (by rw [hn]; simp [hc])

theorem trimZeros_value (s : Str) (h : Digits s) :
    (digitsVal (trimZeros s) : ℚ) * 10 ^ ((s.length : Int) - (trimZeros s).length) = digitsVal s := by
  obtain ⟨n, hn⟩ := trimZeros_append s
  have hl : s.length = (trimZeros s).length + n := by conv_lhs => rw [hn]; simp
  have hv : digitsVal s = digitsVal (trimZeros s) * 10 ^ n := by
    conv_lhs => rw [hn]
    rw [digitsVal_append h.trim (digits_zeros n), digitsVal_zeros]; simp
  rw [hv, hl]
  simp

theorem digit_ne {c : Char} {n : Nat} (h : digitVal c = some n) : c ≠ '.' ∧ c ≠ 'e' ∧ c ≠ '-' ∧ c ≠ '+' := by
  refine ⟨?_, ?_, ?_, ?_⟩ <;> (rintro rfl; simp [digitVal] at h)

theorem span_none {p : Char → Bool} {s : Str} (h : ∀ c ∈ s, p c = true) : s.span p = (s, []) := by
  have := List.takeWhile_append_of_pos (l₂ := []) h
  have h2 := List.dropWhile_append_of_pos (l₂ := []) h
  rw [List.span_eq_takeWhile_dropWhile]
  simp_all

theorem span_some {p : Char → Bool} {s r : Str} {x : Char} (h : ∀ c ∈ s, p c = true) (hx : p x = false) : (s ++ x :: r).span p = (s, x :: r) := by
  rw [List.span_eq_takeWhile_dropWhile, List.takeWhile_append_of_pos h, List.dropWhile_append_of_pos h]
  simp [hx]

theorem readMantissa_whole {a : Str} (ha : Digits a) (hne : a ≠ []) : readMantissa a = some (digitsVal a : ℚ) := by
  rw [readMantissa, span_none fun c hc => by obtain ⟨n, hn⟩ := ha c hc; simpa using (digit_ne hn).1]
  simp [readNat_digits ha hne]

theorem readMantissa_point {a b : Str} (ha : Digits a) (hb : Digits b) (hne : a ≠ []) (hnb : b ≠ []) :
    readMantissa (a ++ '.' :: b) = some ((digitsVal (a ++ b) : ℚ) / 10 ^ b.length) := by
  rw [readMantissa, span_some (fun c hc => by obtain ⟨n, hn⟩ := ha c hc; simpa using (digit_ne hn).1) (by simp)]
  simp only [readNat_digits ha hne, readNat_digits hb hnb, Option.bind_some, Option.map_some, digitsVal_append ha hb]
  congr 1
  push_cast
  field_simp

theorem readUnsigned_plain {s : Str} (h : ∀ c ∈ s, c ≠ 'e') : readUnsigned s = readMantissa s := by
  rw [readUnsigned, span_none fun c hc => by simpa using h c hc]

theorem readUnsigned_exp {s x : Str} {q : ℚ} {z : ℤ} (h : ∀ c ∈ s, c ≠ 'e') (hs : readMantissa s = some q) (hx : readExponent x = some z) :
    readUnsigned (s ++ 'e' :: x) = some (q * 10 ^ z) := by
  rw [readUnsigned, span_some (fun c hc => by simpa using h c hc) (by simp)]
  simp [hs, hx]

theorem readExponent_text (x : Int) :
    readExponent ((if x < 0 then '-' else '+') :: (if x.natAbs < 10 then '0' :: natDigits x.natAbs else natDigits x.natAbs)) = some x := by
  have hr : readNat (if x.natAbs < 10 then '0' :: natDigits x.natAbs else natDigits x.natAbs) = some x.natAbs := by
    split
    · have h := readNatAux_value _ (digits_natDigits x.natAbs) 0
      rw [digitsVal_natDigits] at h
      show readNatAux 0 ('0' :: natDigits x.natAbs) = _
      simpa [readNatAux, digitVal] using h
    · exact readNat_natDigits _
  by_cases hx : x < 0
  · simp only [hx, if_true, readExponent, hr, Option.map_some, Option.some.injEq]; omega
  · simp only [hx, if_false, readExponent, hr, Option.map_some, Option.some.injEq]; omega

theorem readUnsigned_fmtE {mant : Str} (h : Digits mant) (hne : mant ≠ []) (exp : Int) :
    readUnsigned (fmtE mant exp) = some ((digitsVal mant : ℚ) * 10 ^ (exp - mant.length)) := by
  cases mant with
  | nil => exact absurd rfl hne
  | cons d ds =>
    have hd : Digits [d] := fun c hc => h c (by simp at hc; simp [hc])
    have hds : Digits ds := fun c hc => h c (by simp [hc])
    have h10 : (10 : ℚ) ≠ 0 := by norm_num
    have hm : readMantissa (d :: (if ds = [] then [] else '.' :: ds)) = some ((digitsVal (d :: ds) : ℚ) / 10 ^ ds.length) := by
      by_cases he : ds = []
      · subst he; simpa using readMantissa_whole hd (by simp)
      · simpa [he] using readMantissa_point hd hds (by simp) he
    have hno : ∀ c ∈ (d :: (if ds = [] then [] else '.' :: ds)), c ≠ 'e' := by
      intro c hc
      have : c = d ∨ c = '.' ∨ c ∈ ds := by
        split at hc <;> simp at hc ⊢ <;> rcases hc with hc | hc <;> simp_all
      rcases this with rfl | rfl | hc
      · obtain ⟨n, hn⟩ := h c (by simp); exact (digit_ne hn).2.1
      · decide
      · obtain ⟨n, hn⟩ := hds c hc; exact (digit_ne hn).2.1
    have := readUnsigned_exp hno hm (readExponent_text (exp - 1))
    rw [fmtE]
    rw [show (d :: (if ds = [] then [] else '.' :: ds) ++ ('e' :: (if exp - 1 < 0 then '-' else '+') ::
      (if (exp - 1).natAbs < 10 then '0' :: natDigits (exp - 1).natAbs else natDigits (exp - 1).natAbs))) = _ from rfl, this]
    congr 1
    rw [div_mul_eq_mul_div, div_eq_iff (pow_ne_zero _ h10), mul_assoc, ← zpow_natCast (10 : ℚ), ← zpow_add₀ h10]
    congr 2
    simp; ring

theorem digitAt_range (mant : Str) (p : Nat) (hp : p ≤ mant.length) :
    (List.range (mant.length - p)).map (fun i : Nat => digitAt mant ((p : Int) + i)) = mant.drop p := by
  apply List.ext_getElem
  · simp
  · intro i h1 h2
    simp at h1 h2
    have h3 : (p : Int) + (i : Nat) = ((p + i : Nat) : Int) := by simp
    simp only [List.getElem_map, List.getElem_range, h3, digitAt, List.getElem_drop]
    rw [if_pos (by omega), Int.toNat_natCast, List.getD_eq_getElem?_getD, List.getElem?_eq_getElem (by omega)]
    rfl

theorem digitAt_low (mant : Str) (z : Nat) :
    (List.range (mant.length + z)).map (fun i : Nat => digitAt mant (-(z : Int) + i)) = List.replicate z '0' ++ mant := by
  apply List.ext_getElem
  · simp; omega
  · intro i h1 h2
    simp at h1
    simp only [List.getElem_map, List.getElem_range, digitAt]
    by_cases hi : i < z
    · rw [List.getElem_append_left (by simpa using hi)]
      simp; intro h; omega
    · rw [List.getElem_append_right (by simp; omega)]
      have h3 : (-(z : Int) + (i : Nat)).toNat = i - z := by omega
      simp [h3, List.getD_eq_getElem?_getD, show i - z < mant.length by omega]
      omega

theorem readUnsigned_fmtF {mant : Str} (h : Digits mant) (exp : Int) (hz : mant = [] → exp = 0) :
    readUnsigned (fmtF mant exp ((mant.length : Int) - exp).toNat) = some ((digitsVal mant : ℚ) * 10 ^ (exp - mant.length)) := by
  have h10 : (10 : ℚ) ≠ 0 := by norm_num
  have hdot : ∀ {a b : Str}, Digits a → Digits b → ∀ c ∈ a ++ '.' :: b, c ≠ 'e' := by
    intro a b ha hb c hc
    simp only [List.mem_append, List.mem_cons] at hc
    rcases hc with hc | rfl | hc
    · obtain ⟨n, hn⟩ := ha c hc; exact (digit_ne hn).2.1
    · decide
    · obtain ⟨n, hn⟩ := hb c hc; exact (digit_ne hn).2.1
  have hpl : ∀ {a : Str}, Digits a → ∀ c ∈ a, c ≠ 'e' := fun ha c hc => by
    obtain ⟨n, hn⟩ := ha c hc; exact (digit_ne hn).2.1
  have h0 : Digits ['0'] := by simpa using digits_zeros 1
  by_cases he : 0 < exp
  · have hm : mant ≠ [] := fun hm => by rw [hz hm] at he; omega
    obtain ⟨p, rfl⟩ := Int.eq_ofNat_of_zero_le (Int.le_of_lt he)
    by_cases hl : p < mant.length
    · have hp : ((mant.length : Int) - (p : Int)).toNat = mant.length - p := by omega
      have ht : Digits (mant.take p) := fun c hc => h c (List.mem_of_mem_take hc)
      have hd : Digits (mant.drop p) := fun c hc => h c (List.mem_of_mem_drop hc)
      have htext : fmtF mant (p : Int) ((mant.length : Int) - (p : Int)).toNat = mant.take p ++ '.' :: mant.drop p := by
        rw [fmtF, hp, digitAt_range mant p (by omega)]
        simp [show 0 < p by omega, show 0 < mant.length - p by omega, show p - mant.length = 0 by omega]
      rw [htext, readUnsigned_plain (hdot ht hd), readMantissa_point ht hd (fun hx => by rcases List.take_eq_nil_iff.mp hx with h | h; omega; exact hm h) (by simpa using hl)]
      congr 1
      rw [List.take_append_drop, div_eq_iff (pow_ne_zero _ h10), mul_assoc, ← zpow_natCast (10 : ℚ), ← zpow_add₀ h10]
      simp only [List.length_drop]
      rw [show (p : Int) - mant.length + ((mant.length - p : Nat) : Int) = 0 by omega]
      simp
    · have hp : ((mant.length : Int) - (p : Int)).toNat = 0 := by omega
      have htext : fmtF mant (p : Int) ((mant.length : Int) - (p : Int)).toNat = mant ++ List.replicate (p - mant.length) '0' := by
        rw [fmtF, hp]
        simp [show 0 < p by omega, List.take_of_length_le (show mant.length ≤ p by omega)]
      have hdg := h.append (digits_zeros (p - mant.length))
      rw [htext, readUnsigned_plain (hpl hdg), readMantissa_whole hdg (by simp [hm]), digitsVal_append h (digits_zeros _), digitsVal_zeros]
      congr 1
      have : (p : Int) - mant.length = ((p - mant.length : Nat) : Int) := by omega
      rw [this, zpow_natCast]
      push_cast
      simp
  · obtain ⟨z, rfl⟩ : ∃ z : Nat, exp = -(z : Int) := ⟨exp.natAbs, by omega⟩
    have hp : ((mant.length : Int) - -(z : Int)).toNat = mant.length + z := by omega
    have hdg := (digits_zeros z).append h
    by_cases hl : mant.length + z = 0
    · have hm : mant = [] := List.length_eq_zero_iff.mp (by omega)
      subst hm
      have hz' : z = 0 := by simpa using hl
      subst hz'
      simp [fmtF, digitsVal, readNatAux]
      rw [readUnsigned_plain (hpl h0), readMantissa_whole h0 (by simp)]
      simp [digitsVal, readNatAux, digitVal]
    · have htext : fmtF mant (-(z : Int)) ((mant.length : Int) - -(z : Int)).toNat = ['0'] ++ '.' :: (List.replicate z '0' ++ mant) := by
        rw [fmtF, hp, digitAt_low]
        rw [if_neg he, if_pos (by omega)]
      rw [htext, readUnsigned_plain (hdot h0 hdg), readMantissa_point h0 hdg (by simp) (by simp; intro h1 h2; apply hl; simp [h1, h2]),
        digitsVal_append h0 hdg, digitsVal_append (digits_zeros z) h, digitsVal_zeros]
      congr 1
      rw [div_eq_iff (pow_ne_zero _ h10), mul_assoc, ← zpow_natCast (10 : ℚ), ← zpow_add₀ h10]
      simp [digitsVal, readNatAux, digitVal]

theorem readUnsigned_fmtG {mant : Str} (h : Digits mant) (hlen : mant.length ≤ 10) (exp : Int) (hz : mant = [] → exp = 0) :
    readUnsigned (fmtG mant exp) = some ((digitsVal mant : ℚ) * 10 ^ (exp - mant.length)) := by
  simp only [fmtG]
  by_cases hc : exp - 1 < -4 ∨ (if mant.length < 10 ∧ exp ≤ mant.length then (mant.length : Int) else 10) ≤ exp - 1
  · rw [if_pos hc]
    refine readUnsigned_fmtE h (fun hm => ?_) exp
    have he := hz hm
    subst hm
    subst he
    simp at hc
  · rw [if_neg hc]
    have hf : ((if exp < 10 then (mant.length : Int) else 10) - exp).toNat = ((mant.length : Int) - exp).toNat := by
      split
      · rfl
      · omega
    rw [hf]
    exact readUnsigned_fmtF h exp hz

/-! ### Rounding -/

theorem natDigits_bounds (n : Nat) (h : 1 < (natDigits n).length) : 10 ^ ((natDigits n).length - 1) ≤ n ∧ n < 10 ^ (natDigits n).length := by
  constructor
  · by_contra hc
    have := natDigitsAux_length_le (n + 1) n ((natDigits n).length - 2) (by
      rw [show (natDigits n).length - 2 + 1 = (natDigits n).length - 1 by omega]; omega)
    change (natDigits n).length ≤ _ at this
    omega
  · by_contra hc
    have := natDigitsAux_length_ge (n + 1) n (natDigits n).length (by omega) (by omega)
    change _ ≤ (natDigits n).length at this
    omega

/-- The remainder left by rounding is at most half of the unit. -/
theorem roundDiv_half (n j : Nat) : 2 * |(roundDiv n j : ℤ) * 10 ^ j - n| ≤ 10 ^ j := by
  have hd : (n : ℤ) = 10 ^ j * ((n / 10 ^ j : Nat) : ℤ) + ((n % 10 ^ j : Nat) : ℤ) := by exact_mod_cast (Nat.div_add_mod n (10 ^ j)).symm
  have hm : ((n % 10 ^ j : Nat) : ℤ) < 10 ^ j := by exact_mod_cast Nat.mod_lt n (by positivity)
  have h0 : (0 : ℤ) ≤ ((n % 10 ^ j : Nat) : ℤ) := by positivity
  simp only [roundDiv]
  generalize hr : n % 10 ^ j = r at *
  generalize n / 10 ^ j = q at *
  by_cases hc : 2 * r > 10 ^ j ∨ 2 * r = 10 ^ j ∧ q % 2 = 1
  · rw [if_pos hc]
    have : (10 : ℤ) ^ j ≤ 2 * r := by
      rcases hc with hc | hc
      · exact_mod_cast hc.le
      · exact_mod_cast hc.1.ge
    rw [hd, abs_of_nonneg (by push_cast; nlinarith)]
    push_cast
    nlinarith
  · rw [if_neg hc]
    have : 2 * (r : ℤ) ≤ 10 ^ j := by
      rw [not_or] at hc
      exact_mod_cast Nat.not_lt.mp hc.1
    rw [hd, abs_of_nonpos (by nlinarith)]
    nlinarith

/-- No multiple of the unit is closer. -/
theorem roundDiv_nearest (n j : Nat) (c : ℤ) : |(roundDiv n j : ℤ) * 10 ^ j - n| ≤ |c * 10 ^ j - n| := by
  have h := roundDiv_half n j
  generalize (roundDiv n j : ℤ) = q at *
  have hp : (0 : ℤ) < 10 ^ j := by positivity
  by_cases hc : c = q
  · rw [hc]
  · have h1 : 10 ^ j ≤ |c * 10 ^ j - q * 10 ^ j| := by
      rw [← sub_mul, abs_mul, abs_of_pos hp]
      have : (1 : ℤ) ≤ |c - q| := Int.one_le_abs (sub_ne_zero.mpr hc)
      nlinarith
    have h2 : |c * 10 ^ j - q * 10 ^ j| ≤ |c * 10 ^ j - n| + |q * 10 ^ j - n| := by
      have := abs_sub_abs_le_abs_sub (c * 10 ^ j - n) (q * 10 ^ j - n)
      calc |c * 10 ^ j - q * 10 ^ j| = |(c * 10 ^ j - n) - (q * 10 ^ j - n)| := by congr 1; ring
        _ ≤ _ := abs_sub _ _
    linarith

theorem roundDiv_le (n j k : Nat) (h : n < 10 ^ (j + k)) : roundDiv n j ≤ 10 ^ k := by
  have : n / 10 ^ j < 10 ^ k := by rw [Nat.div_lt_iff_lt_mul (by positivity)]; rw [Nat.pow_add, Nat.mul_comm] at h; exact h
  simp only [roundDiv]
  split <;> omega

/-- What the text of `D / 10^s` says. -/
theorem decimalText_value (D s : Nat) (hD : D ≠ 0) :
    readUnsigned (decimalText D s) = some (((roundTen D s).1 : ℚ) * 10 ^ (-(roundTen D s).2)) := by
  have h10 : (10 : ℚ) ≠ 0 := by norm_num
  have main : ∀ q : Nat, q ≠ 0 → q ≤ 10 ^ 10 → ∀ s' : Int, readUnsigned (fmtG (trimZeros (natDigits q)) ((natDigits q).length - s')) =
      some ((q : ℚ) * 10 ^ (-s')) := by
    intro q hq hq' s'
    have hd := digits_natDigits q
    have hv := trimZeros_value _ hd
    rw [digitsVal_natDigits] at hv
    have hne : trimZeros (natDigits q) ≠ [] := by
      intro h
      rw [h] at hv
      simp [digitsVal, readNatAux] at hv
      exact hq (by exact_mod_cast hv.symm)
    have hlen : (trimZeros (natDigits q)).length ≤ 10 := by
      by_cases h : q < 10 ^ 10
      · have h1 := (natDigits_length_le_ten q).mpr h
        obtain ⟨n, hn⟩ := trimZeros_append (natDigits q)
        have := congrArg List.length hn
        simp at this
        omega
      · have : q = 10 ^ 10 := by omega
        subst this
        decide +kernel
    rw [readUnsigned_fmtG hd.trim hlen _ fun h => absurd h hne]
    congr 1
    conv_rhs => rw [← hv]
    rw [mul_assoc, ← zpow_add₀ h10]
    congr 2
    ring
  rw [decimalText, if_neg hD]
  simp only [roundTen]
  by_cases hk : (natDigits D).length ≤ 10
  · simp only [hk, if_true]
    exact main D hD (((natDigits_length_le_ten D).mp hk).le) s
  · simp only [hk, if_false]
    obtain ⟨h1, h2⟩ := natDigits_bounds D (by omega)
    refine main _ ?_ (roundDiv_le _ _ _ (by rwa [show (natDigits D).length - 10 + 10 = (natDigits D).length by omega])) _
    have : 10 ^ 9 ≤ D / 10 ^ ((natDigits D).length - 10) := by
      rw [Nat.le_div_iff_mul_le (by positivity), ← Nat.pow_add, show 9 + ((natDigits D).length - 10) = (natDigits D).length - 1 by omega]
      exact h1
    simp only [roundDiv]
    split <;> omega

theorem decimalText_zero (s : Nat) : readUnsigned (decimalText 0 s) = some 0 := by
  rw [decimalText, if_pos rfl, readUnsigned_fmtG (by intro c hc; simp at hc) (by simp) 0 (fun _ => rfl)]
  simp [digitsVal, readNatAux]

theorem tenDigits_round (D s : Nat) : TenDigits (((roundTen D s).1 : ℚ) * 10 ^ (-(roundTen D s).2)) := by
  simp only [roundTen]
  by_cases hk : (natDigits D).length ≤ 10
  · simp only [hk, if_true]
    have := (natDigits_length_le_ten D).mp hk
    exact ⟨D, -(s : Int), by simpa using by exact_mod_cast this, by simp⟩
  · simp only [hk, if_false]
    obtain ⟨h1, h2⟩ := natDigits_bounds D (by omega)
    have hq := roundDiv_le D ((natDigits D).length - 10) 10 (by rwa [show (natDigits D).length - 10 + 10 = (natDigits D).length by omega])
    generalize roundDiv D ((natDigits D).length - 10) = q at *
    generalize (s : Int) - ((natDigits D).length - 10 : Nat) = s'
    by_cases h : q < 10 ^ 10
    · exact ⟨q, -s', by simpa using by exact_mod_cast h, by simp⟩
    · have : q = 10 ^ 10 := by omega
      subst this
      refine ⟨1, 10 - s', by norm_num, ?_⟩
      rw [sub_eq_add_neg, zpow_add₀ (by norm_num)]
      norm_num

/-- No other number of ten digits is closer. -/
theorem round_nearest (D s : Nat) (r : ℚ) (hr : TenDigits r) :
    |((roundTen D s).1 : ℚ) * 10 ^ (-(roundTen D s).2) - D / 10 ^ s| ≤ |r - D / 10 ^ s| := by
  have h10 : (10 : ℚ) ≠ 0 := by norm_num
  obtain ⟨d, z, hd, rfl⟩ := hr
  simp only [roundTen]
  by_cases hk : (natDigits D).length ≤ 10
  · simp only [hk, if_true]
    rw [zpow_neg, zpow_natCast, ← div_eq_mul_inv, sub_self, abs_zero]
    exact abs_nonneg _
  · simp only [hk, if_false]
    obtain ⟨h1, h2⟩ := natDigits_bounds D (by omega)
    generalize hj : (natDigits D).length - 10 = j at *
    rw [show (natDigits D).length - 1 = j + 9 by omega] at h1
    have hs : ∀ x : ℚ, x * 10 ^ (-(s : Int)) - D / 10 ^ s = (x - D) * 10 ^ (-(s : Int)) := by
      intro x; rw [zpow_neg, zpow_natCast, ← div_eq_mul_inv, ← div_eq_mul_inv]; ring
    have hl : (roundDiv D j : ℚ) * 10 ^ (-((s : Int) - (j : Int))) = ((roundDiv D j : ℚ) * 10 ^ j) * 10 ^ (-(s : Int)) := by
      rw [show -((s : Int) - (j : Int)) = j + -(s : Int) by ring, zpow_add₀ h10, zpow_natCast]; ring
    have hr : (d : ℚ) * 10 ^ z = (d * 10 ^ (z + s)) * 10 ^ (-(s : Int)) := by
      rw [mul_assoc, ← zpow_add₀ h10]; congr 2; ring
    rw [hl, hr, hs, hs, abs_mul, abs_mul]
    refine mul_le_mul_of_nonneg_right ?_ (abs_nonneg _)
    have cast : ∀ c : ℤ, |(roundDiv D j : ℚ) * 10 ^ j - D| ≤ |(c : ℚ) * 10 ^ j - D| := by
      intro c; exact_mod_cast roundDiv_nearest D j c
    by_cases hw : (j : Int) ≤ z + s
    · obtain ⟨w, hw⟩ : ∃ w : Nat, z + s = (w : Int) + j := ⟨(z + s - j).toNat, by omega⟩
      have := cast (d * 10 ^ w)
      rw [hw, zpow_add₀ h10, zpow_natCast, zpow_natCast, ← mul_assoc]
      push_cast at this
      exact this
    · have hsmall : (d : ℚ) * 10 ^ (z + s) ≤ 10 ^ (j + 9) := by
        have hd' : (d : ℚ) ≤ 10 ^ 10 := by
          have : d < 10 ^ 10 := lt_of_le_of_lt (le_abs_self d) hd
          exact_mod_cast this.le
        have hz : (10 : ℚ) ^ (z + s) ≤ 10 ^ ((j : Int) - 1) := zpow_le_zpow_right₀ (by norm_num) (by omega)
        calc (d : ℚ) * 10 ^ (z + s) ≤ 10 ^ 10 * 10 ^ (z + s) := mul_le_mul_of_nonneg_right hd' (zpow_nonneg (by norm_num) _)
          _ ≤ 10 ^ 10 * 10 ^ ((j : Int) - 1) := mul_le_mul_of_nonneg_left hz (by positivity)
          _ = 10 ^ (j + 9) := by
            rw [← zpow_natCast (10 : ℚ) 10, ← zpow_add₀ h10, ← zpow_natCast (10 : ℚ) (j + 9)]
            congr 1; push_cast; ring
      have hD : (10 : ℚ) ^ (j + 9) ≤ D := by exact_mod_cast h1
      refine le_trans (cast (10 ^ 9)) ?_
      push_cast
      have h9 : (1000000000 : ℚ) * 10 ^ j = 10 ^ (j + 9) := by rw [pow_add]; ring
      rw [h9, abs_of_nonpos (by linarith), abs_of_nonpos (by linarith)]
      linarith

theorem exactDecimal_value (m : Nat) (e : Int) : ((exactDecimal m e).1 : ℚ) / 10 ^ (exactDecimal m e).2 = m * 2 ^ e := by
  unfold exactDecimal
  split
  · next h =>
    obtain ⟨n, rfl⟩ := Int.eq_ofNat_of_zero_le h
    simp
  · next h =>
    obtain ⟨n, rfl⟩ : ∃ n : Nat, e = -(n : Int) := ⟨e.natAbs, by omega⟩
    simp only [neg_neg, Int.toNat_natCast, zpow_neg, zpow_natCast]
    push_cast
    rw [show (10 : ℚ) = 5 * 2 by norm_num, mul_pow]
    field_simp

end Verif
