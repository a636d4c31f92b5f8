import Verif.FloatLemmas
import Verif.PropsExprs

/-
C51 number literals with a fraction, and C06 for large integers.
-/

namespace Verif
open Spec

/-- The number a Go `float64` stands for. -/
def Spec.floatValue (neg : Bool) (m : Nat) (e : Int) : ℚ := (if neg then -1 else 1) * (m * 2 ^ e)

theorem tenDigits_neg {q : ℚ} (h : TenDigits q) : TenDigits (-q) := by
  obtain ⟨d, z, h1, h2⟩ := h
  exact ⟨-d, z, by simpa using h1, by rw [h2]; push_cast; ring⟩

theorem tenDigits_zero : TenDigits 0 := ⟨0, 0, by norm_num, by norm_num⟩

theorem decimalText_head (D s : Nat) : (decimalText D s).head? ≠ some '-' := by
  have key : ∀ mant : Str, Digits mant → ∀ exp, (fmtG mant exp).head? ≠ some '-' := by
    intro mant hm exp
    simp only [fmtG]
    generalize (if mant.length < 10 ∧ exp ≤ mant.length then (mant.length : Int) else 10) = eprec
    generalize (((if exp < 10 then (mant.length : Int) else 10) - exp).toNat) = prec
    split
    · cases mant with
      | nil => simp [fmtE]
      | cons d ds =>
        obtain ⟨n, hn⟩ := hm d (by simp)
        simpa [fmtE] using (digit_ne hn).2.2.1
    · simp only [fmtF]
      split
      · next h =>
        cases mant with
        | nil =>
          obtain ⟨p, hp⟩ : ∃ p, exp.toNat = p + 1 := ⟨exp.toNat - 1, by omega⟩
          simp [hp, List.replicate_succ]
        | cons d ds =>
          obtain ⟨n, hn⟩ := hm d (by simp)
          obtain ⟨p, hp⟩ : ∃ p, exp.toNat = p + 1 := ⟨exp.toNat - 1, by omega⟩
          simpa [hp] using (digit_ne hn).2.2.1
      · simp
  unfold decimalText
  split
  · exact key [] (by intro c hc; simp at hc) 0
  · exact key _ (digits_natDigits _).trim _

theorem readNumber_plain {s : Str} (h : s.head? ≠ some '-') : readNumber s = readUnsigned s := by
  unfold readNumber
  split
  · simp at h
  · rfl

/-- The text of a finite number, read as a number: with ten digits, and no number with ten digits is closer. -/
theorem floatText_reads (neg : Bool) (m : Nat) (e : Int) : ∃ t q, floatText (.fin neg m e) = some t ∧ readNumber t = some q ∧ TenDigits q ∧
    ∀ r, TenDigits r → |q - floatValue neg m e| ≤ |r - floatValue neg m e| := by
  obtain ⟨q, h1, h2, h3⟩ : ∃ q, readUnsigned (decimalText (exactDecimal m e).1 (exactDecimal m e).2) = some q ∧ TenDigits q ∧
      ∀ r, TenDigits r → |q - m * 2 ^ e| ≤ |r - m * 2 ^ e| := by
    by_cases hD : (exactDecimal m e).1 = 0
    · refine ⟨0, by rw [hD]; exact decimalText_zero _, tenDigits_zero, fun r _ => ?_⟩
      rw [← exactDecimal_value, hD]
      simp
    · exact ⟨_, decimalText_value _ _ hD, tenDigits_round _ _, fun r hr => by rw [← exactDecimal_value]; exact round_nearest _ _ r hr⟩
  cases neg with
  | false =>
    refine ⟨_, q, rfl, ?_, h2, ?_⟩
    · rw [← h1]
      exact readNumber_plain (decimalText_head _ _)
    · simpa [floatValue] using h3
  | true =>
    refine ⟨_, -q, rfl, ?_, tenDigits_neg h2, ?_⟩
    · show readNumber ('-' :: decimalText _ _) = _
      rw [readNumber, h1]
      rfl
    · intro r hr
      have := h3 (-r) (tenDigits_neg hr)
      simp only [floatValue, if_true]
      rw [show -q - -1 * (m * 2 ^ e) = -(q - m * 2 ^ e) by ring, show r - -1 * (m * 2 ^ e) = -(-r - m * 2 ^ e) by ring, abs_neg, abs_neg]
      exact this

/-- C51: the literal of a finite number is a number with at most ten digits, and no number with at most ten digits is closer to the
given one.  Missing: it is the given number, which holds exactly for numbers with at most ten digits (`C51_exact`). -/
theorem C51_float_partial (k : Key) (neg : Bool) (m : Nat) (e : Int) : ∃ v t q, floatLiteral k (.fin neg m e) = .ok v ∧ v.err = none ∧
    (∀ en : Env, en.al k = none → shownAs en v.visit = (t, en)) ∧ readNumber t = some q ∧ TenDigits q ∧
    ∀ r, TenDigits r → |q - floatValue neg m e| ≤ |r - floatValue neg m e| := by
  obtain ⟨t, q, h1, h2, h3, h4⟩ := floatText_reads neg m e
  refine ⟨_, t, q, by simp only [floatLiteral, h1]; rfl, rfl, ?_, h2, h3, h4⟩
  intro en hk
  simp [Val.mk', shownAs, leaf, nd, denL, den, shown, hk, described, defined, Vis.asAlias, sepText]

/-- C51: exactly the numbers with at most ten digits keep their value. -/
theorem C51_exact (neg : Bool) (m : Nat) (e : Int) :
    (∃ t, floatText (.fin neg m e) = some t ∧ readNumber t = some (floatValue neg m e)) ↔ TenDigits (floatValue neg m e) := by
  obtain ⟨t, q, h1, h2, h3, h4⟩ := floatText_reads neg m e
  constructor
  · rintro ⟨t', h5, h6⟩
    rw [h1] at h5
    cases h5
    rw [h2] at h6
    cases h6
    exact h3
  · intro h
    refine ⟨t, h1, ?_⟩
    have := h4 _ h
    rw [sub_self, abs_zero] at this
    rw [h2, sub_eq_zero.mp (abs_nonpos_iff.mp this)]

/-- `0.75` has two digits; `-5 * 2^-21` has too many. -/
example : floatText (.fin false 3 (-2)) = some c!"0.75" ∧ floatText (.fin true 5 (-21)) = some c!"-2.384185791e-06" ∧
    TenDigits (floatValue false 3 (-2)) := by
  refine ⟨by decide +kernel, by decide +kernel, 75, -2, by norm_num, by norm_num [floatValue]⟩

/-- C51 fails: the third part of one, as a `float64`, loses six digits. -/
theorem C51_lossy : floatText (.fin false 6004799503160661 (-54)) = some c!"0.3333333333" ∧
    readNumber c!"0.3333333333" ≠ some (floatValue false 6004799503160661 (-54)) := by
  refine ⟨by decide +kernel, ?_⟩
  have : readNumber c!"0.3333333333" = some (3333333333 / 10000000000) := by decide +kernel
  rw [this]
  simp only [floatValue, ne_eq, Option.some.injEq]
  norm_num

/-- C51 fails: `LiteralOf(2.0)` is the integer `2`: dividing by it drops the fraction. -/
theorem C51_whole_number : floatText (.fin false 2 0) = some c!"2" ∧ readInt c!"2" = some 2 := by decide +kernel

/-- C51 fails: infinity is no number, and NaN makes the program panic. -/
theorem C51_no_number (k : Key) (neg : Bool) : (∃ t, floatText (.inf neg) = some t ∧ readNumber t = none) ∧ floatLiteral k .nan = .panic := by
  refine ⟨?_, rfl⟩
  cases neg
  · exact ⟨_, rfl, by decide +kernel⟩
  · exact ⟨_, rfl, by decide +kernel⟩

/-- C51: a percentile is rejected exactly if it is below 0 or above 1, and otherwise accepted.  Missing: NaN (`C51_percentile_nan`). -/
theorem C51_percentile_partial (disc distinct : Bool) (k ka kl : Key) (x : Val) (hx : Good x) (neg : Bool) (m : Nat) (e : Int) :
    ∃ v, percentile disc distinct k ka kl (some x) (.fin neg m e) = .ok v ∧ (v.err.isSome ↔ floatValue neg m e < 0 ∨ 1 < floatValue neg m e) := by
  have h2 : (0 : ℚ) < 2 ^ e := zpow_pos (by norm_num) e
  have hn : (GoFloat.fin neg m e).negative = true ↔ floatValue neg m e < 0 := by
    cases neg with
    | false =>
      simp only [GoFloat.negative, Bool.false_and, floatValue, Bool.false_eq_true, if_false, one_mul, false_iff, not_lt]
      exact mul_nonneg (Nat.cast_nonneg _) h2.le
    | true =>
      simp only [GoFloat.negative, Bool.true_and, floatValue, if_true, bne_iff_ne, ne_eq]
      constructor
      · intro h
        have : (0 : ℚ) < m := by exact_mod_cast Nat.pos_of_ne_zero h
        have := mul_pos this h2
        linarith
      · rintro h rfl
        simp at h
  have ha : (GoFloat.fin neg m e).aboveOne = true ↔ 1 < floatValue neg m e := by
    cases neg with
    | true =>
      simp only [GoFloat.aboveOne, Bool.not_true, Bool.false_and, floatValue, if_true, Bool.false_eq_true, false_iff, not_lt]
      have : (0 : ℚ) ≤ m * 2 ^ e := mul_nonneg (Nat.cast_nonneg _) h2.le
      linarith
    | false =>
      simp only [GoFloat.aboveOne, Bool.not_false, Bool.true_and, floatValue, Bool.false_eq_true, if_false, one_mul]
      by_cases he : 0 ≤ e
      · obtain ⟨n, rfl⟩ := Int.eq_ofNat_of_zero_le he
        simp only [he, if_true, Int.toNat_natCast, zpow_natCast, decide_eq_true_eq]
        constructor
        · intro h; exact_mod_cast h
        · intro h; exact_mod_cast h
      · obtain ⟨n, rfl⟩ : ∃ n : Nat, e = -(n : Int) := ⟨e.natAbs, by omega⟩
        simp only [he, if_false, neg_neg, Int.toNat_natCast, zpow_neg, zpow_natCast, decide_eq_true_eq, gt_iff_lt]
        rw [← div_eq_mul_inv, lt_div_iff₀ (by positivity), one_mul]
        constructor
        · intro h; exact_mod_cast h
        · intro h; exact_mod_cast h
  obtain ⟨t, q, h1, -⟩ := floatText_reads neg m e
  by_cases hr : floatValue neg m e < 0 ∨ 1 < floatValue neg m e
  · have hb : ((GoFloat.fin neg m e).negative || (GoFloat.fin neg m e).aboveOne) = true := by
      rw [Bool.or_eq_true, hn, ha]; exact hr
    refine ⟨.bad (.site "functions.go" 272), ?_, ?_⟩
    · simp only [percentile, firstErr, errOf, nilErr, missing, hx.1, hx.2, hb, if_true]
      rfl
    · simpa [Val.bad] using hr
  · have hb : ((GoFloat.fin neg m e).negative || (GoFloat.fin neg m e).aboveOne) = false := by
      rw [Bool.eq_false_iff, ne_eq, Bool.or_eq_true, hn, ha]; exact hr
    have hb' := Bool.or_eq_false_iff.mp hb
    have hlit : floatLiteral kl (.fin neg m e) = .ok (.mk' kl [leaf kl t]) := by simp [floatLiteral, h1]
    have hs : scanArgs [some x, some (.mk' kl [leaf kl t])] = .ok (.ok [x, .mk' kl [leaf kl t]]) := by
      simp [scanArgs, hx.1, Val.mk', Outcome.map, Except.map]
    have hp : percentile disc distinct k ka kl (some x) (.fin neg m e) =
        (floatLiteral kl (.fin neg m e)).bind fun p =>
          if distinct then functionInvocationDistinct k ka (if disc then fnPercentileDisc else fnPercentileCont) [some x, some p]
          else functionInvocation k ka (if disc then fnPercentileDisc else fnPercentileCont) [some x, some p] := by
      simp [percentile, firstErr, errOf, nilErr, missing, hx.1, hx.2, hb']
    have hagg : (if disc then fnPercentileDisc else fnPercentileCont).aggregate = true := by cases disc <;> rfl
    generalize (if disc then fnPercentileDisc else fnPercentileCont) = d at hp hagg
    rw [hp, hlit]
    cases distinct with
    | false =>
      refine ⟨invocation k ka d.name (visitsOf [x, .mk' kl [leaf kl t]]), by simp only [Outcome.bind, functionInvocation, hs, Outcome.map, hx.2, if_true, Bool.false_eq_true, if_false], ?_⟩
      simpa [invocation, Val.mk'] using hr
    | true =>
      refine ⟨invocation k ka d.name (nd 0 [] [] false (leaf 0 c!"DISTINCT " :: x.visit) :: visitsOf [.mk' kl [leaf kl t]]),
        by simp only [Outcome.bind, functionInvocationDistinct, hs, Outcome.map, hx.2, if_true, hagg, Bool.not_true, Bool.false_eq_true, if_false], ?_⟩
      simpa [invocation, Val.mk'] using hr

example : (∃ v, percentile true false 1 2 3 (some SampleExpr.wa) (.fin false 1 (-1)) = .ok v ∧ v.err = none) ∧
    ∃ v, percentile true false 1 2 3 (some SampleExpr.wa) (.fin false 3 (-1)) = .ok v ∧ v.err.isSome = true := ⟨⟨_, rfl, by decide +kernel⟩, _, rfl, by decide +kernel⟩

/-- C51 fails: NaN is neither below 0 nor above 1, and the call panics. -/
theorem C51_percentile_nan (disc distinct : Bool) (k ka kl : Key) (x : Val) (hx : Good x) : percentile disc distinct k ka kl (some x) .nan = .panic := by
  simp [percentile, firstErr, errOf, nilErr, missing, hx.1, hx.2, GoFloat.negative, GoFloat.aboveOne, floatLiteral, floatText, Outcome.bind]

/-! ### C06 Large integers -/

/-- Integers are printed as whole numbers of `float64` would be. -/
theorem decimalText_nat (n : Nat) : decimalText n 0 = bigFloatNatText n := by
  by_cases h0 : n = 0
  · subst h0; decide +kernel
  obtain ⟨z, hz⟩ := trimZeros_append (natDigits n)
  have hlz := congrArg List.length hz
  rw [List.length_append, List.length_replicate] at hlz
  rw [decimalText, if_neg h0]
  simp only [roundTen, bigFloatNatText]
  by_cases hk : (natDigits n).length ≤ 10
  · simp only [hk, if_true]
    have hpos : 0 < (natDigits n).length := List.length_pos_of_ne_nil (natDigits_ne_nil n)
    generalize hT : trimZeros (natDigits n) = mant at *
    simp only [fmtG]
    rw [if_neg (by split <;> omega)]
    have hp : ((if ((natDigits n).length : Int) - ((0 : Nat) : Int) < 10 then (mant.length : Int) else 10) - (((natDigits n).length : Int) - ((0 : Nat) : Int))).toNat = 0 := by
      split <;> omega
    rw [hp]
    simp only [fmtF]
    rw [if_pos (by omega), if_neg (by omega), List.append_nil]
    rw [show (((natDigits n).length : Int) - ((0 : Nat) : Int)).toNat = (natDigits n).length by omega, List.take_of_length_le (by omega)]
    rw [show (natDigits n).length - mant.length = z by omega]
    exact hz.symm
  · simp only [hk, if_false]
    obtain ⟨h1, h2⟩ := natDigits_bounds n (by omega)
    have hq1 := roundDiv_le n ((natDigits n).length - 10) 10 (by rwa [show (natDigits n).length - 10 + 10 = (natDigits n).length by omega])
    have hq2 : 10 ^ 9 ≤ roundDiv n ((natDigits n).length - 10) := by
      have : 10 ^ 9 ≤ n / 10 ^ ((natDigits n).length - 10) := by
        rw [Nat.le_div_iff_mul_le (by positivity), ← Nat.pow_add, show 9 + ((natDigits n).length - 10) = (natDigits n).length - 1 by omega]
        exact h1
      simp only [roundDiv]
      split <;> omega
    generalize (natDigits n).length = k at *
    generalize roundDiv n (k - 10) = q at *
    have hlen : (natDigits q).length = if q = 10 ^ 10 then 11 else 10 := by
      split
      · next h => subst h; decide +kernel
      · next h =>
        have h3 := (natDigits_length_le_ten q).mpr (by omega)
        have h4 := natDigitsAux_length_ge (q + 1) q 9 (by omega) hq2
        change _ ≤ (natDigits q).length at h4
        omega
    have hmant : trimZeros (natDigits q) ≠ [] := by
      intro h
      have hv := trimZeros_value _ (digits_natDigits q)
      rw [digitsVal_natDigits, h] at hv
      simp [digitsVal, readNatAux] at hv
      have : q = 0 := by exact_mod_cast hv.symm
      omega
    have hml : (trimZeros (natDigits q)).length ≤ (natDigits q).length := by
      obtain ⟨z', hz'⟩ := trimZeros_append (natDigits q)
      have := congrArg List.length hz'
      rw [List.length_append] at this
      omega
    generalize trimZeros (natDigits q) = mant at *
    have hx : ((natDigits q).length : Int) - (((0 : Nat) : Int) - ((k - 10 : Nat) : Int)) - 1 = ((if q = 10 ^ 10 then k else k - 1 : Nat) : Int) := by
      rw [hlen]; split <;> omega
    simp only [fmtG]
    rw [if_pos (Or.inr (by rw [hx]; split <;> split <;> omega))]
    cases mant with
    | nil => exact absurd rfl hmant
    | cons d ds =>
      simp only [fmtE]
      rw [hx]
      generalize (if q = 10 ^ 10 then k else k - 1) = x
      cases ds with
      | nil => simp [expText]
      | cons d' ds' => simp [expText]

/-- C06, all integers: the literal denotes the closest number that has at most ten digits. -/
theorem C06_closest (i : Int) : ∃ q, readNumber (intLiteralText i) = some q ∧ TenDigits q ∧ ∀ r, TenDigits r → |q - i| ≤ |r - i| := by
  have key : ∀ (neg : Bool) (n : Nat), ∃ q, readNumber ((if neg then ['-'] else []) ++ bigFloatNatText n) = some q ∧ TenDigits q ∧
      ∀ r, TenDigits r → |q - floatValue neg n 0| ≤ |r - floatValue neg n 0| := by
    intro neg n
    obtain ⟨t, q, h1, h2, h3, h4⟩ := floatText_reads neg n 0
    refine ⟨q, ?_, h3, h4⟩
    simp only [floatText, exactDecimal, Int.le_refl, if_true, Int.toNat_zero, Nat.pow_zero, Nat.mul_one, decimalText_nat, Option.some.injEq] at h1
    rw [h1, h2]
  cases i with
  | ofNat n =>
    obtain ⟨q, h1, h2, h3⟩ := key false n
    exact ⟨q, by simpa [intLiteralText] using h1, h2, by simpa [floatValue] using h3⟩
  | negSucc n =>
    obtain ⟨q, h1, h2, h3⟩ := key true (n + 1)
    refine ⟨q, by simpa [intLiteralText] using h1, h2, fun r hr => ?_⟩
    have := h3 r hr
    simp only [floatValue, if_true] at this
    simpa [Int.negSucc_eq] using this

-- 123456789012 is not given exactly; no number of ten digits is closer than the one given
example : intLiteralText 123456789012 = c!"1.23456789e+11" ∧ readNumber c!"1.23456789e+11" = some 123456789000 ∧
    ∀ r, TenDigits r → |(123456789000 : ℚ) - (123456789012 : Int)| ≤ |r - (123456789012 : Int)| := by
  have h : intLiteralText 123456789012 = c!"1.23456789e+11" := by decide +kernel
  obtain ⟨q, h1, _, h3⟩ := C06_closest 123456789012
  have hq : readNumber c!"1.23456789e+11" = some 123456789000 := by decide +kernel
  rw [h, hq] at h1
  cases h1
  exact ⟨h, hq, h3⟩

/-- C06: of two numbers equally close, the even one is taken. -/
theorem C06_ties : intLiteralText 12345678905 = c!"1.23456789e+10" ∧ intLiteralText 12345678915 = c!"1.234567892e+10" ∧
    intLiteralText (-99999999995) = c!"-1e+11" := by decide +kernel

end Verif
